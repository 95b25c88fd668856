import Verif.Spec.Plane
import Verif.Props.Sequence
import Verif.Props.Demo
import Verif.Props.Bounds
import Verif.Props.Clusters
import Mathlib.Data.Set.Finite.Basic
/-
Property C73: wrapping on the torus is an infinite cluster in the periodically repeated configuration.
-/
namespace SqPerc

variable {L : Nat} {occ : Nat → Prop}

theorem emod_toNat_lt (hL : 0 < L) (x : Int) : (x % L).toNat < L := by
  have h1 := Int.emod_nonneg x (show (L : Int) ≠ 0 by omega)
  have h2 := Int.emod_lt_of_pos x (show (0 : Int) < L by omega)
  omega

theorem siteAt_lt (hL : 0 < L) (p : Int × Int) : siteAt L p < L * L := mul_add_lt (emod_toNat_lt hL _) (emod_toNat_lt hL _)

theorem emod_succ (hL : 0 < L) (x : Int) : ((x + 1) % L).toNat = ((x % L).toNat + 1) % L := by
  have h1 := Int.emod_nonneg x (show (L : Int) ≠ 0 by omega)
  apply Int.ofNat.inj
  show (((x + 1) % L).toNat : Int) = (((x % L).toNat + 1) % L : Nat)
  rw [Int.toNat_of_nonneg (Int.emod_nonneg _ (by omega))]
  push_cast
  rw [Int.toNat_of_nonneg h1, Int.emod_add_emod]

theorem emod_pred (hL : 0 < L) (x : Int) : ((x + -1) % L).toNat = ((x % L).toNat + (L - 1)) % L := by
  have h1 := Int.emod_nonneg x (show (L : Int) ≠ 0 by omega)
  apply Int.ofNat.inj
  show (((x + -1) % L).toNat : Int) = (((x % L).toNat + (L - 1)) % L : Nat)
  rw [Int.toNat_of_nonneg (Int.emod_nonneg _ (by omega))]
  push_cast [Nat.cast_sub (show 1 ≤ L by omega)]
  rw [Int.toNat_of_nonneg h1, Int.emod_add_emod, show x + ((L : Int) - 1) = x + -1 + L by ring, Int.add_emod_right]

/-- Steps in the plane are steps on the torus. -/
theorem siteAt_step (hL : 0 < L) (p : Int × Int) (d : Dir) : siteAt L (p + d.vec) = nbr L (siteAt L p) d := by
  have hc := emod_toNat_lt hL p.2
  unfold siteAt
  cases d
  · rw [nbr_right_rc hc, ← emod_succ hL]; simp [Dir.vec]
  · rw [nbr_down_rc hc, ← emod_succ hL]; simp [Dir.vec]
  · rw [nbr_left_rc hc, ← emod_pred hL]; simp [Dir.vec]
  · rw [nbr_up_rc hc, ← emod_pred hL]; simp [Dir.vec]

/-- Every site has its copies in the plane. -/
theorem siteAt_rc {s : Nat} (hs : s < L * L) : siteAt L ((s / L : Nat), (s % L : Nat)) = s := by
  obtain ⟨r, c, hr, hc, rfl⟩ := exists_rc hs
  rw [mul_add_div_L hc, mul_add_mod_L hc]
  unfold siteAt
  simp only
  rw [Int.emod_eq_of_lt (by omega) (by omega), Int.emod_eq_of_lt (by omega) (by omega)]
  simp

theorem planeConn_iff (hL : 0 < L) {p q : Int × Int} (hp : occ (siteAt L p)) :
    PlaneConn L occ p q ↔ Walk L occ (siteAt L p) (siteAt L q) (q - p) := by
  constructor
  · intro h
    induction h with
    | refl => rw [sub_self]; exact .nil hp
    | @tail x y _ hxy ih =>
      obtain ⟨h1, h2, d, rfl⟩ := hxy
      have := Walk.snoc d ih (by rw [← siteAt_step hL]; exact h2)
      rw [← siteAt_step hL, show x - p + d.vec = x + d.vec - p by abel] at this
      exact this
  · intro h
    have key : ∀ {s t : Nat} {v : Int × Int}, Walk L occ s t v → s = siteAt L p → t = siteAt L (p + v) ∧ PlaneConn L occ p (p + v) := by
      intro s t v h
      induction h with
      | nil _ => intro e; rw [add_zero]; exact ⟨e, .refl⟩
      | @snoc t v d w ho ih =>
        intro e
        obtain ⟨h1, h2⟩ := ih e
        rw [← add_assoc, siteAt_step hL, ← h1]
        refine ⟨rfl, h2.tail ⟨?_, ?_, d, rfl⟩⟩
        · rw [← h1]; exact w.occ_right
        · rw [siteAt_step hL, ← h1]; exact ho
    have := (key h rfl).2
    rwa [add_sub_cancel] at this

theorem mem_planeCluster (hL : 0 < L) {p q : Int × Int} (hp : occ (siteAt L p)) :
    q ∈ planeCluster L occ p ↔ Walk L occ (siteAt L p) (siteAt L q) (q - p) := by
  rw [← planeConn_iff hL hp]
  exact ⟨fun h => h.2, fun h => ⟨hp, h⟩⟩

/-- Walks on the torus lift to the plane. -/
theorem Walk.lift (hL : 0 < L) {p : Int × Int} {t : Nat} {v : Int × Int} (h : Walk L occ (siteAt L p) t v) : siteAt L (p + v) = t := by
  obtain ⟨s, hs⟩ : ∃ s, s = siteAt L p := ⟨_, rfl⟩
  rw [← hs] at h
  induction h with
  | nil _ => rw [add_zero, hs]
  | @snoc t v d w ho ih => rw [← add_assoc, siteAt_step hL, ih]

theorem Walk.times {s : Nat} {v : Int × Int} (h : Walk L occ s s v) (n : Nat) : Walk L occ s s (n • v) := by
  induction n with
  | zero => rw [zero_smul]; exact .nil h.occ_left
  | succ n ih => rw [succ_nsmul]; exact ih.append h

/-- A site lies on a closed walk around the torus exactly if its copies in the plane lie in infinite clusters. -/
theorem wrapsAt_iff_infinite (hL : 0 < L) (hocc : ∀ s, occ s → s < L * L) (p : Int × Int) :
    WrapsAt L occ (siteAt L p) ↔ (planeCluster L occ p).Infinite := by
  constructor
  · rintro ⟨v, hv, w⟩
    have hp := w.occ_left
    refine Set.infinite_of_injective_forall_mem (f := fun n : Nat => p + n • v) ?_ ?_
    · intro a b hab
      have : a • v = b • v := add_left_cancel hab
      have h1 := congrArg Prod.fst this
      have h2 := congrArg Prod.snd this
      simp only [Prod.smul_fst, nsmul_eq_mul] at h1
      simp only [Prod.smul_snd, nsmul_eq_mul] at h2
      by_contra hne
      have hne' : (a : Int) ≠ b := by exact_mod_cast hne
      apply hv
      refine Prod.ext ?_ ?_
      · by_contra h0; exact hne' (mul_right_cancel₀ h0 h1)
      · by_contra h0; exact hne' (mul_right_cancel₀ h0 h2)
    · intro n
      show p + n • v ∈ _
      rw [mem_planeCluster hL hp, (w.times n).lift hL, add_sub_cancel_left]
      exact w.times n
  · intro h
    have hp : occ (siteAt L p) := by
      obtain ⟨q, hq⟩ := h.nonempty
      exact hq.1
    obtain ⟨q, hq, q', hq', hne, e⟩ := h.exists_ne_map_eq_of_mapsTo (t := Set.Iio (L * L)) (f := siteAt L)
      (fun q _ => siteAt_lt hL q) (Set.finite_Iio _)
    rw [mem_planeCluster hL hp] at hq hq'
    rw [← e] at hq'
    refine ⟨q - p + -(q' - p), ?_, hq.append (hq'.reverse hocc)⟩
    intro h0
    apply hne
    have : q - q' = 0 := by rw [← h0]; abel
    exact sub_eq_zero.1 this

/-- The configuration wraps around the torus exactly if the repeated configuration has an infinite cluster. -/
theorem wraps_iff_infinite (hL : 0 < L) (hocc : ∀ s, occ s → s < L * L) : Wraps L occ ↔ ∃ p, (planeCluster L occ p).Infinite := by
  constructor
  · rintro ⟨s, v, hv, w⟩
    refine ⟨((s / L : Nat), (s % L : Nat)), ?_⟩
    rw [← wrapsAt_iff_infinite hL hocc, siteAt_rc (hocc s w.occ_left)]
    exact ⟨v, hv, w⟩
  · rintro ⟨p, hp⟩
    obtain ⟨v, hv, w⟩ := (wrapsAt_iff_infinite hL hocc p).2 hp
    exact ⟨_, v, hv, w⟩

/-- A cluster that does not go around the torus has the same number of sites on the torus and in the plane. -/
theorem planeCluster_ncard (hL : 0 < L) (hocc : ∀ s, occ s → s < L * L) {p : Int × Int} (hp : occ (siteAt L p))
    (hf : (planeCluster L occ p).Finite) : (planeCluster L occ p).ncard = (siteComp L occ (siteAt L p)).card := by
  classical
  have hw : ¬ WrapsAt L occ (siteAt L p) := fun h => (wrapsAt_iff_infinite hL hocc p).1 h hf
  rw [← Set.ncard_coe_finset]
  refine Set.ncard_congr (fun q _ => siteAt L q) ?_ ?_ ?_
  · intro q hq
    rw [mem_planeCluster hL hp] at hq
    simp only [siteComp, Finset.coe_filter, Finset.mem_range, Set.mem_setOf_eq]
    exact ⟨siteAt_lt hL q, hq.occ_right, hq.siteConn⟩
  · intro q q' hq hq' e
    rw [mem_planeCluster hL hp] at hq hq'
    rw [← e] at hq'
    by_contra hne
    refine hw ⟨q - p + -(q' - p), ?_, hq.append (hq'.reverse hocc)⟩
    intro h0
    apply hne
    have : q - q' = 0 := by rw [← h0]; abel
    exact sub_eq_zero.1 this
  · intro t ht
    simp only [siteComp, Finset.coe_filter, Finset.mem_range, Set.mem_setOf_eq] at ht
    obtain ⟨v, w⟩ := ht.2.2.walk hp
    refine ⟨p + v, ?_, w.lift hL⟩
    rw [mem_planeCluster hL hp, w.lift hL, add_sub_cancel_left]
    exact w

/-! ### The reports of the code -/

variable {α : Type} {env : Env α} {v : Variant} {S S' : Perc α} {seq : List Nat}

theorem Reach.occ_lt (h : Reach env v L S) {s : Nat} (hs : S.Occ s) : s < L * L := by
  obtain ⟨_, A, M, hA⟩ := h.sim
  exact ((M.occ_iff s).1 hs).1

/-- C73: in a run in which detection follows every placement, `detect_wrapping()` returns True exactly if the sites placed so far, repeated
periodically over the plane, form an infinite cluster. -/
theorem C73_detect (hL : 3 ≤ L) (T : Trace env v L S seq) (hne : seq ≠ []) :
    ∃ S' w, S.detectWrapping = .ok (S', w) ∧ (w = true ↔ ∃ p, (planeCluster L (· ∈ seq) p).Infinite) := by
  obtain ⟨S', w, h1, h2, h3⟩ := C17_detect_iff hL T hne
  refine ⟨S', w, h1, ?_⟩
  have e : S.Occ = (· ∈ seq) := funext fun s => propext (h3 s)
  rw [h2, e, wraps_iff_infinite (by omega)]
  obtain ⟨_, A, M, hA, _⟩ := T.sim
  intro s hs
  exact ((M.occ_iff s).1 ((h3 s).2 hs)).1

/-- C73: after any history, once wrapping has been detected all copies in the plane of all sites of the wrapping cluster lie in infinite
clusters. -/
theorem C73_wrapping_cluster (h : Reach env v L S) (ha : S.afterWrapping = true) {p : Int × Int}
    (hp : S.lat.getSiteGid (siteAt L p) = .ok S.wrappingId) : (planeCluster L S.Occ p).Infinite := by
  have hocc : ∀ s, S.Occ s → s < L * L := fun s => h.occ_lt
  obtain ⟨g, bs, hg, _, _, _, _, s, h1, h2, h3⟩ := C20_wrapping_cluster h ha
  obtain ⟨hL, A, M, hA⟩ := h.sim
  have hpo : S.Occ (siteAt L p) := by
    rw [M.siteGid (siteAt_lt hL p)] at hp
    rw [M.occ_iff]
    refine ⟨siteAt_lt hL p, ?_⟩
    rw [Except.ok.inj hp, hg]
    omega
  have hc := (C07_same_gid_iff_connected h hpo h1).1 (hp.trans h2.symm)
  obtain ⟨u, w⟩ := hc.walk hpo
  obtain ⟨v', hv', w'⟩ := h3
  rw [← wrapsAt_iff_infinite hL hocc]
  refine ⟨u + v' + -u, ?_, (w.append w').append (w.reverse hocc)⟩
  rwa [show u + v' + -u = v' by abel]

/-- C73: after any history a finite cluster in the plane has as many sites as the code counts in the cluster of the site. -/
theorem C73_site_count (h : Reach env v L S) {p : Int × Int} {g : Int} (hg : 0 ≤ g) (hp : S.lat.getSiteGid (siteAt L p) = .ok g)
    (hf : (planeCluster L S.Occ p).Finite) : S.pool.siteCount g = .ok (planeCluster L S.Occ p).ncard := by
  have hocc : ∀ s, S.Occ s → s < L * L := fun s => h.occ_lt
  obtain ⟨hL, A, M, hA⟩ := h.sim
  have C := hA.inv.core
  have hl := siteAt_lt hL p
  rw [M.siteGid hl] at hp
  have hpg := Except.ok.inj hp
  have hV : VOcc L A.V (siteAt L p) := ⟨hl, by rw [hpg]; exact hg⟩
  have hpo : S.Occ (siteAt L p) := (M.occ_iff _).2 hV
  rw [planeCluster_ncard hL hocc hpo hf, M.occ_eq, C.siteComp_slen hV, hpg]
  refine M.siteCount ?_
  rcases C.sgr _ hl with h1 | h1
  · omega
  · rw [← hpg]; exact mem_gids.2 h1

/-- C73: the relative indices of the sites of a cluster draw the cluster as it is in the plane: if the cluster of the point `p` is finite, it
consists of the points whose distance from `p` is the difference of the relative indices of a site of the cluster and the site at `p`. -/
theorem C73_relative_index (hL : 3 ≤ L) (h : Reach env v L S) {p : Int × Int} {st : Site} (hs : S.lat.getSite (siteAt L p) = .ok st)
    (ho : 0 ≤ st.gid) (hf : (planeCluster L S.Occ p).Finite) :
    planeCluster L S.Occ p = {q | ∃ t tt, S.lat.getSite t = .ok tt ∧ tt.gid = st.gid ∧
      q = p + (tt.rel.c1 - st.rel.c1, tt.rel.c2 - st.rel.c2)} := by
  have hocc : ∀ s, S.Occ s → s < L * L := fun s => h.occ_lt
  have hL0 : 0 < L := by omega
  have hpo : S.Occ (siteAt L p) := ⟨st, hs, decide_eq_true ho⟩
  have hw : ¬ WrapsAt L S.Occ (siteAt L p) := fun h => (wrapsAt_iff_infinite hL0 hocc p).1 h hf
  ext q
  rw [mem_planeCluster hL0 hpo, Set.mem_setOf_eq]
  constructor
  · intro w
    obtain ⟨tt, h1, h2⟩ := w.occ_right
    have hg := (C07_same_gid_iff_connected h hpo w.occ_right).2 w.siteConn
    have hg : st.gid = tt.gid := by
      simp only [Lattice.getSiteGid, hs, h1, bind, Except.bind, pure, Except.pure] at hg
      exact Except.ok.inj hg
    refine ⟨_, tt, h1, hg.symm, ?_⟩
    obtain ⟨w', _, _⟩ := C53_relative_index_lift hL h hs h1 ho hg
    by_contra hne
    refine hw ⟨q - p + -(tt.rel.c1 - st.rel.c1, tt.rel.c2 - st.rel.c2), ?_, w.append (w'.reverse hocc)⟩
    intro h0
    apply hne
    have : q - (p + (tt.rel.c1 - st.rel.c1, tt.rel.c2 - st.rel.c2)) = 0 := by rw [← h0]; abel
    exact sub_eq_zero.1 this
  · rintro ⟨t, tt, h1, h2, rfl⟩
    obtain ⟨w', _, _⟩ := C53_relative_index_lift hL h hs h1 ho h2.symm
    rw [w'.lift hL0, add_sub_cancel_left]
    exact w'

/-- The runs to which `C73_detect` applies include one that has filled the first row of the lattice of side 3, where the cluster of the point
`(0, 0)` is infinite, and one that has filled two thirds of it, where all clusters are finite. -/
example : (∃ S : Perc Unit, Trace demoEnv .l0 3 S [0, 1] ∧ ∀ p, (planeCluster 3 (· ∈ [0, 1]) p).Finite) ∧
    ∃ S : Perc Unit, Trace demoEnv .l0 3 S [0, 1, 2] ∧ (planeCluster 3 (· ∈ [0, 1, 2]) (0, 0)).Infinite := by
  constructor
  · obtain ⟨S, seq, T, hp⟩ := checkTrace_trace (env := demoEnv) (v := .l0) (L := 3) (ids := [0, 1]) (n := 2)
      (p := fun S seq => decide (seq = [0, 1] ∧ (match S.detectWrapping with | .ok (_, w) => w | .error _ => true) = false)) (by decide +kernel)
    obtain ⟨rfl, h2⟩ := of_decide_eq_true hp
    refine ⟨S, T, fun p => ?_⟩
    obtain ⟨S', w, e, hw⟩ := C73_detect (by decide) T (by simp)
    rw [e] at h2
    simp only at h2
    by_contra hi
    rw [hw.2 ⟨p, hi⟩] at h2
    cases h2
  · obtain ⟨S, seq, T, hp⟩ := checkTrace_trace (env := demoEnv) (v := .l0) (L := 3) (ids := [0, 1, 2]) (n := 3)
      (p := fun S seq => decide (seq = [0, 1, 2])) (by decide +kernel)
    obtain rfl := of_decide_eq_true hp
    refine ⟨S, T, ?_⟩
    rw [← wrapsAt_iff_infinite (by decide) (by decide)]
    have w0 : Walk 3 (· ∈ [0, 1, 2]) 0 0 0 := .nil (by decide)
    have w1 := w0.snoc .right (by decide)
    have w2 := w1.snoc .right (by decide)
    have w3 := w2.snoc .right (by decide)
    exact ⟨_, by decide, w3⟩

end SqPerc
