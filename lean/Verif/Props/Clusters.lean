import Verif.Proof.Progress
import Verif.Props.Obs
import Mathlib.Algebra.BigOperators.Ring.Finset
/-
Properties C05-C13, C51: clusters, counters, largest cluster.
-/
namespace SqPerc

variable {α : Type} {L : Nat} {env : Env α} {v : Variant} {S S' : Perc α}

/-- A history used by the examples: L = 3, six sites placed, two of them in a merging position, with one detection. -/
def demoOps : List Op := placeInOrder [0, 2, 4, 8, 1, 5] 5 ++ [.detect, .place0]

/-! ### C05 -/

/-- C05: there are `2 L²` clusters; every bond is in the list of exactly one of them, once; `get_bond_gid_by_id` gives its position;
nothing but bonds of the lattice is listed. -/
theorem C05_bond_partition (h : Reach env v L S) :
    S.pool.clusters.length = 2 * (L * L) ∧
    (∀ b < 2 * (L * L), ∃ g : Nat, g < 2 * (L * L) ∧ S.lat.getBondGid b = .ok (g : Int) ∧
      ∀ g' : Nat, g' < 2 * (L * L) → ∃ bs, S.pool.getBonds (g' : Int) = .ok bs ∧ bs.count b = if g' = g then 1 else 0) ∧
    (∀ (g : Nat) bs, S.pool.getBonds (g : Int) = .ok bs → ∀ b ∈ bs, b < 2 * (L * L)) := by
  obtain ⟨_, A, M, hA⟩ := h.sim
  have C := hA.inv.core
  refine ⟨by rw [M.pool]; simp [mkPool], ?_, ?_⟩
  · intro b hb
    have hg := mem_gids.2 (C.bgr b hb)
    obtain ⟨g, hgl, e⟩ := exists_nat_of_mem_gids hg
    refine ⟨g, hgl, by rw [M.bondGid hb, e], fun g' hg' => ⟨_, M.getBonds (natCast_mem_gids hg'), ?_⟩⟩
    have hr := mem_gids.1 (natCast_mem_gids (L := L) hg')
    have hnd := C.ndb _ hr.1 hr.2
    have hm := C.memb _ hr.1 hr.2 b
    split
    · next h =>
      subst h
      exact List.count_eq_one_of_mem hnd (hm.2 ⟨hb, e⟩)
    · next h =>
      refine List.count_eq_zero_of_not_mem fun hb' => h ?_
      have := (hm.1 hb').2
      omega
  · intro g bs e b hb
    by_cases hg : g < 2 * (L * L)
    · rw [M.getBonds (natCast_mem_gids hg)] at e
      rw [← Except.ok.inj e] at hb
      have hr := mem_gids.1 (natCast_mem_gids (L := L) hg)
      exact ((C.memb _ hr.1 hr.2 b).1 hb).1
    · exfalso
      rw [M.pool] at e
      simp only [ClusterPool.getBonds, pyGetI, Int.natCast_nonneg, if_true, Int.toNat_natCast, mkPool] at e
      rw [pyGet_map_range_error _ _ _ (Nat.le_of_not_lt hg)] at e
      cases e

theorem sum_clusters_map (f : OneCluster → Nat) (L : Nat) (P : PV) :
    ((mkPool (2 * (L * L)) P).clusters.map f).sum = ∑ g ∈ gids L, f (mkCluster P g) := by
  simp only [mkPool, List.map_map]
  have h1 : ∀ n : Nat, ((List.range n).map (f ∘ fun g : Nat => mkCluster P (g : Int))).sum
      = ∑ g ∈ Finset.Ico (0 : Int) (n : Int), f (mkCluster P g) := by
    intro n
    induction n with
    | zero => simp
    | succ n ih =>
      rw [List.range_succ, List.map_append, List.sum_append, ih]
      have : Finset.Ico (0 : Int) ((n + 1 : Nat) : Int) = insert (n : Int) (Finset.Ico (0 : Int) (n : Int)) := by
        ext x; simp only [Finset.mem_Ico, Finset.mem_insert]; omega
      rw [this, Finset.sum_insert (by simp)]
      simp [Nat.add_comm]
  exact h1 _

/-- C05: the bond counts of all clusters sum to `2 L²`. -/
theorem C05_bond_counts_sum (h : Reach env v L S) :
    (S.pool.clusters.map fun c => c.bondIds.length).sum = 2 * (L * L) := by
  obtain ⟨_, A, M, hA⟩ := h.sim
  rw [M.pool, sum_clusters_map]
  exact hA.inv.core.sum_len

example : ∃ S, Reach demoEnv .l0 3 S ∧ isOk (S.lat.getBondGid 0) 15 = true ∧ isOk (S.pool.bondCount 15) 16 = true := by
  obtain ⟨S, h, hp⟩ := checkOps_reach (env := demoEnv) (v := .l0) (L := 3) (ops := demoOps)
    (p := fun S => isOk (S.lat.getBondGid 0) 15 && isOk (S.pool.bondCount 15) 16) (by decide +kernel)
  simp only [Bool.and_eq_true] at hp
  exact ⟨S, h, hp⟩

/-! ### C06 -/

/-- C06: an occupied site is in the list of exactly one cluster, once, at the position given by `get_site_gid_by_id`; an unoccupied
site has gid -1 and is in no list; nothing but sites of the lattice is listed. -/
theorem C06_site_partition (h : Reach env v L S) :
    (∀ s < L * L, S.Occ s → ∃ g : Nat, g < 2 * (L * L) ∧ S.lat.getSiteGid s = .ok (g : Int) ∧
      ∀ g' : Nat, g' < 2 * (L * L) → ∃ ss, S.pool.getSites (g' : Int) = .ok ss ∧ ss.count s = if g' = g then 1 else 0) ∧
    (∀ s < L * L, ¬ S.Occ s → S.lat.getSiteGid s = .ok (-1) ∧
      ∀ (g : Nat) ss, S.pool.getSites (g : Int) = .ok ss → s ∉ ss) ∧
    (∀ (g : Nat) ss, S.pool.getSites (g : Int) = .ok ss → ∀ s ∈ ss, s < L * L) := by
  obtain ⟨_, A, M, hA⟩ := h.sim
  have C := hA.inv.core
  have hmem : ∀ (g : Nat) ss, S.pool.getSites (g : Int) = .ok ss → ∀ s ∈ ss, s < L * L ∧ A.V.sg s = g := by
    intro g ss e s hs
    by_cases hg : g < 2 * (L * L)
    · rw [M.getSites (natCast_mem_gids hg)] at e
      rw [← Except.ok.inj e] at hs
      have hr := mem_gids.1 (natCast_mem_gids (L := L) hg)
      exact (C.mems _ hr.1 hr.2 s).1 hs
    · exfalso
      rw [M.pool] at e
      simp only [ClusterPool.getSites, pyGetI, Int.natCast_nonneg, if_true, Int.toNat_natCast, mkPool] at e
      rw [pyGet_map_range_error _ _ _ (Nat.le_of_not_lt hg)] at e
      cases e
  refine ⟨?_, ?_, fun g ss e s hs => (hmem g ss e s hs).1⟩
  · intro s hs ho
    rw [M.occ_iff] at ho
    have hg : A.V.sg s ∈ gids L := by
      rcases C.sgr s hs with h | h
      · have := ho.2; omega
      · exact mem_gids.2 h
    obtain ⟨g, hgl, e⟩ := exists_nat_of_mem_gids hg
    refine ⟨g, hgl, by rw [M.siteGid hs, e], fun g' hg' => ⟨_, M.getSites (natCast_mem_gids hg'), ?_⟩⟩
    have hr := mem_gids.1 (natCast_mem_gids (L := L) hg')
    have hnd := C.nds _ hr.1 hr.2
    have hm := C.mems _ hr.1 hr.2 s
    split
    · next h =>
      subst h
      exact List.count_eq_one_of_mem hnd (hm.2 ⟨hs, e⟩)
    · next h =>
      refine List.count_eq_zero_of_not_mem fun hb' => h ?_
      have := (hm.1 hb').2
      omega
  · intro s hs ho
    rw [M.occ_iff] at ho
    have e : A.V.sg s = -1 := by
      rcases C.sgr s hs with h | h
      · exact h
      · exact absurd ⟨hs, h.1⟩ ho
    refine ⟨by rw [M.siteGid hs, e], fun g ss hg hm => ?_⟩
    have := (hmem g ss hg s hm).2
    omega

example : ∃ S, Reach demoEnv .l0 3 S ∧ isOk (S.lat.getSiteGid 4) 15 = true ∧ isOk (S.lat.getSiteGid 3) (-1) = true ∧
    isOk (S.pool.siteCount 15) 6 = true := by
  obtain ⟨S, h, hp⟩ := checkOps_reach (env := demoEnv) (v := .l0) (L := 3) (ops := demoOps)
    (p := fun S => isOk (S.lat.getSiteGid 4) 15 && (isOk (S.lat.getSiteGid 3) (-1) && isOk (S.pool.siteCount 15) 6)) (by decide +kernel)
  simp only [Bool.and_eq_true] at hp
  exact ⟨S, h, hp⟩

/-! ### C07, C08 -/

/-- C07: two occupied sites have the same gid exactly when a path of occupied nearest neighbours joins them. -/
theorem C07_same_gid_iff_connected (h : Reach env v L S) {s t : Nat} (hs : S.Occ s) (ht : S.Occ t) :
    S.lat.getSiteGid s = S.lat.getSiteGid t ↔ SiteConn L S.Occ s t := by
  obtain ⟨_, A, M, hA⟩ := h.sim
  have C := hA.inv.core
  rw [M.occ_eq] at *
  rw [M.siteGid hs.1, M.siteGid ht.1, siteConn_iff vocc_lt hs ht .right .right, ← C.conn _ _ (bondAt_lt hs.1 _) (bondAt_lt ht.1 _),
    C.inc s _ hs, C.inc t _ ht]
  exact ⟨Except.ok.inj, congrArg _⟩

/-- C08: two bonds have the same gid exactly when a chain of bonds meeting at occupied sites joins them. -/
theorem C08_same_gid_iff_connected (h : Reach env v L S) {b b' : Nat} (hb : b < 2 * (L * L)) (hb' : b' < 2 * (L * L)) :
    S.lat.getBondGid b = S.lat.getBondGid b' ↔ BondConn L S.Occ b b' := by
  obtain ⟨_, A, M, hA⟩ := h.sim
  rw [M.bondGid hb, M.bondGid hb', M.occ_eq, ← hA.inv.core.conn b b' hb hb']
  exact ⟨Except.ok.inj, congrArg _⟩

/-- C08: an occupied site and its four bonds have the same gid. -/
theorem C08_site_bonds (h : Reach env v L S) {s : Nat} (hs : S.Occ s) (d : Dir) :
    S.lat.getBondGid (bondAt L s d) = S.lat.getSiteGid s := by
  obtain ⟨_, A, M, hA⟩ := h.sim
  rw [M.occ_eq] at hs
  rw [M.bondGid (bondAt_lt hs.1 d), M.siteGid hs.1, hA.inv.core.inc s d hs]

/-- Two sites of the same cluster and one of another cluster. -/
example : ∃ S, Reach demoEnv .l0 4 S ∧ S.Occ 0 ∧ S.Occ 5 ∧ S.Occ 10 ∧ S.lat.getSiteGid 0 = .ok 28 ∧ S.lat.getSiteGid 5 = .ok 28 ∧
    S.lat.getSiteGid 10 = .ok 22 ∧ SiteConn 4 S.Occ 0 5 ∧ ¬ SiteConn 4 S.Occ 0 10 := by
  obtain ⟨S, h, hp⟩ := checkOps_reach (env := demoEnv) (v := .l0) (L := 4) (ops := placeInOrder [0, 5, 10, 1] 4)
    (p := fun S => S.occB 0 && (S.occB 5 && (S.occB 10 && (isOk (S.lat.getSiteGid 0) 28 && (isOk (S.lat.getSiteGid 5) 28 &&
      isOk (S.lat.getSiteGid 10) 22))))) (by decide +kernel)
  simp only [Bool.and_eq_true, isOk_iff, Perc.occB_iff] at hp
  obtain ⟨h1, h2, h3, h4, h5, h6⟩ := hp
  refine ⟨S, h, h1, h2, h3, h4, h5, h6, ?_, ?_⟩
  · rw [← C07_same_gid_iff_connected h h1 h2, h4, h5]
  · rw [← C07_same_gid_iff_connected h h1 h3, h4, h6]
    exact fun e => absurd (Except.ok.inj e) (by decide)

/-! ### C09, C10 -/

/-- C09: a successful `place_one_site` merges the clusters adjacent to the placed site `k` into one of them, `r`, and changes the gid
and the relative index of nothing outside these clusters.  The surviving cluster is the wrapping one, if wrapping was detected and it
is adjacent, and otherwise one of maximal bond count. -/
theorem C09_only_adjacent (h : Reach env v L S) {d : Draw} {b : Bool} (hp : S.placeOneSite env v d = .ok (S', b))
    (hf : S'.selectionFlag = some .success) :
    ∃ k r, S'.selected = some k ∧ k < L * L ∧ (∃ d, S.lat.getBondGid (bondAt L k d) = .ok r) ∧
      S'.lat.getSiteGid k = .ok r ∧
      (∀ b < 2 * (L * L), (∃ d, S.lat.getBondGid b = S.lat.getBondGid (bondAt L k d)) → S'.lat.getBondGid b = .ok r) ∧
      (∀ b < 2 * (L * L), (¬ ∃ d, S.lat.getBondGid b = S.lat.getBondGid (bondAt L k d)) → S'.lat.getBondGid b = S.lat.getBondGid b) ∧
      (∀ s < L * L, s ≠ k → (¬ ∃ d, S.lat.getSiteGid s = S.lat.getBondGid (bondAt L k d)) →
        S'.lat.getSiteGid s = S.lat.getSiteGid s ∧
        (S'.lat.getSite s).map (fun st => st.rel) = (S.lat.getSite s).map (fun st => st.rel)) ∧
      (S.afterWrapping = true → (∃ d, S.lat.getBondGid (bondAt L k d) = .ok S.wrappingId) → r = S.wrappingId) ∧
      (¬ (S.afterWrapping = true ∧ ∃ d, S.lat.getBondGid (bondAt L k d) = .ok S.wrappingId) →
        ∃ n, S.pool.bondCount r = .ok n ∧ ∀ d g, S.lat.getBondGid (bondAt L k d) = .ok g → ∃ m, S.pool.bondCount g = .ok m ∧ m ≤ n) := by
  obtain ⟨_, A, M, hA⟩ := h.sim
  have C := hA.inv.core
  obtain ⟨_, V1, hV, h | h | h⟩ := placeOneSite_sim M hA.inv hp
  rotate_left
  · rw [h.1] at hf; cases hf
  · rw [h.1] at hf; cases hf
  obtain ⟨_, _, k, r, V', P', hk, hg, E, hr, hsel, M'⟩ := h
  have hbg : ∀ b < 2 * (L * L), S.lat.getBondGid b = .ok (V1.bg b) := by
    intro b hb; rw [M.bondGid hb, hV.2.2]
  have hbk : ∀ d, S.lat.getBondGid (bondAt L k d) = .ok (V1.bg (bondAt L k d)) := fun d => hbg _ (bondAt_lt hk d)
  have hsg : ∀ s < L * L, S.lat.getSiteGid s = .ok (V1.sg s) := by
    intro s hs; rw [M.siteGid hs, hV.1]
  have hadj : ∀ g : Int, (∃ d, S.lat.getBondGid (bondAt L k d) = .ok g) ↔ Adj L V1 k g := by
    intro g
    constructor
    · rintro ⟨d, e⟩; exact ⟨d, Except.ok.inj ((hbk d).symm.trans e)⟩
    · rintro ⟨d, e⟩; exact ⟨d, by rw [hbk, e]⟩
  have hadj' : ∀ g : Int, (∃ d, (.ok g : Py Int) = S.lat.getBondGid (bondAt L k d)) ↔ Adj L V1 k g := by
    intro g; rw [← hadj]
    exact exists_congr fun d => eq_comm
  have hcore : ∀ g, Adj L V1 k g → g ∈ gids L := fun g hg' => mem_gids.2 ((C.same hV).adj_range hk hg')
  refine ⟨k, r, hsel, hk, (hadj r).2 E.adj, ?_, ?_, ?_, ?_, ?_, ?_⟩
  · rw [M'.siteGid hk]; exact congrArg _ E.sgSelf
  · intro b hb h
    rw [hbg b hb, hadj'] at h
    rw [M'.bondGid hb]; exact congrArg _ (E.bgAdj b hb h)
  · intro b hb h
    rw [hbg b hb, hadj'] at h
    rw [M'.bondGid hb, hbg b hb]; exact congrArg _ (E.bgFar b hb h)
  · intro s hs hsk h
    rw [hsg s hs, hadj'] at h
    refine ⟨by rw [M'.siteGid hs, hsg s hs]; exact congrArg _ (E.sgFar s hs hsk h), ?_⟩
    rw [M'.lat, M.lat, getSite_mk hs, getSite_mk hs]
    show Except.ok _ = Except.ok _
    refine congrArg _ ((E.relFar s hs hsk h).trans ?_)
    rw [hV.2.1]; rfl
  · intro ha hd
    rw [M.wid, hadj] at hd
    rw [M.aw] at ha
    rw [M.wid]; exact hr.1 ha hd
  · intro hn
    rw [M.wid, hadj, M.aw] at hn
    refine ⟨_, M.bondCount (hcore r E.adj), fun d g e => ⟨_, M.bondCount (hcore g ((hadj g).1 ⟨d, e⟩)), ?_⟩⟩
    exact hr.2 hn g ((hadj g).1 ⟨d, e⟩)

/-- C10: `place_one_site` with flag SUCESS occupies exactly the selected site, which was unoccupied; with any other flag no site
changes; it returns False iff the flag is EMPTY_SITE_LIST. -/
theorem C10_place_one_site (h : Reach env v L S) {d : Draw} {b : Bool} (hp : S.placeOneSite env v d = .ok (S', b)) :
    (S'.selectionFlag = some .success → ∃ k, S'.selected = some k ∧ k < L * L ∧ ¬ S.Occ k ∧ ∀ s, S'.Occ s ↔ S.Occ s ∨ s = k) ∧
    (S'.selectionFlag ≠ some .success → ∀ s, S'.Occ s ↔ S.Occ s) ∧
    (b = false ↔ S'.selectionFlag = some .emptySiteList) ∧ S'.selectionFlag ≠ none := by
  obtain ⟨_, A, M, hA⟩ := h.sim
  have C := hA.inv.core
  obtain ⟨_, V1, hV, h | h | h⟩ := placeOneSite_sim M hA.inv hp
  · obtain ⟨hf, hb, k, r, V', P', hk, hg, E, hr, hsel, M'⟩ := h
    refine ⟨fun _ => ⟨k, hsel, hk, ?_, ?_⟩, fun h => absurd hf h, by simp [hf, hb], by simp [hf]⟩
    · rw [M.occ_iff]; rintro ⟨_, h0⟩; omega
    · intro s
      rw [M'.occ_iff, M.occ_iff, show VOcc L (Abs.V _) s = VOcc L V' s from rfl, E.occ_eq (C.same hV) hk, hV.vocc]
  · refine ⟨fun h' => (by rw [h.1] at h'; cases h'), fun _ s => ?_, by simp [h.1, h.2.1], by simp [h.1]⟩
    rw [h.2.2.occ_iff, M.occ_iff, ← hV.vocc]
  · refine ⟨fun h' => (by rw [h.1] at h'; cases h'), fun _ s => ?_, by simp [h.1, h.2.1], by simp [h.1]⟩
    rw [h.2.2.occ_iff, M.occ_iff, ← hV.vocc]

theorem AStep.occ_mono {A A' : Abs α} (I : AInv L A) (h : AStep env L A A') {s : Nat} (ho : VOcc L A.V s) : VOcc L A'.V s := by
  cases h with
  | @place k r V' P' hk hu E _ =>
    show VOcc L V' s
    rw [E.occ_eq I.core hk]; exact Or.inl ho
  | tick h => show VOcc L _ s; rw [h.vocc]; exact ho
  | detect _ _ _ _ => exact ho
  | reselect _ _ => exact ho

theorem ASteps.occ_mono {A A' : Abs α} (I : AInv L A) (h : ASteps env L A A') {s : Nat} (ho : VOcc L A.V s) : VOcc L A'.V s := by
  induction h with
  | refl => exact ho
  | tail h1 h2 ih => exact h2.occ_mono (I.steps h1) ih

/-- C10: no call other than `reset` un-occupies a site. -/
theorem C10_occupied_stays (h : Reach env v L S) {op : Op} (hs : step env v S op = .ok S') (hr : op.isReset = false) {s : Nat}
    (ho : S.Occ s) : S'.Occ s := by
  obtain ⟨_, A, M, hA⟩ := h.sim
  rcases step_steps M hA.inv hs with ⟨h', _⟩ | ⟨_, A', h1, M'⟩
  · rw [hr] at h'; cases h'
  · rw [M'.occ_iff]
    exact h1.occ_mono hA.inv ((M.occ_iff s).1 ho)

/-- C10: nor does a call that raises. -/
theorem C10_occupied_stays_raised (h : Reach env v L S) {op : Op} {e : PyErr} (he : step env v S op = .error e) {s : Nat} (ho : S.Occ s) :
    (stepRaised env v S op).Occ s := by
  obtain ⟨_, A, M, hA⟩ := h.sim
  obtain ⟨A', h1, M'⟩ := stepRaised_steps M hA he
  rw [M'.occ_iff]
  exact h1.occ_mono hA.inv ((M.occ_iff s).1 ho)

/-- A placement that merges two clusters and leaves a third one alone. -/
example : ∃ S S' b, Reach demoEnv .l0 4 S ∧ S.placeOneSite demoEnv .l0 ⟨0, 0⟩ = .ok (S', b) ∧ S'.selectionFlag = some .success ∧
    S.lat.getSiteGid 0 ≠ S.lat.getSiteGid 5 ∧ S'.lat.getSiteGid 0 = S'.lat.getSiteGid 5 ∧ S'.selected = some 1 := by
  obtain ⟨S, h, hp⟩ := checkOps_reach (env := demoEnv) (v := .l0) (L := 4) (ops := placeInOrder [0, 5, 10, 1] 3)
    (p := fun S => isOk (S.lat.getSiteGid 0) 28 && (isOk (S.lat.getSiteGid 5) 17 && match S.placeOneSite demoEnv .l0 ⟨0, 0⟩ with
      | .ok r => r.1.selectionFlag == some .success && (isOk (r.1.lat.getSiteGid 0) 28 && (isOk (r.1.lat.getSiteGid 5) 28 &&
          r.1.selected == some 1))
      | .error _ => false)) (by decide +kernel)
  simp only [Bool.and_eq_true, isOk_iff] at hp
  obtain ⟨h1, h2, h3⟩ := hp
  cases hq : S.placeOneSite demoEnv .l0 ⟨0, 0⟩ with
  | error e => rw [hq] at h3; cases h3
  | ok r =>
    rw [hq] at h3
    simp only [Bool.and_eq_true, isOk_iff, beq_iff_eq] at h3
    refine ⟨S, r.1, r.2, h, hq, h3.1, ?_, h3.2.1.trans h3.2.2.1.symm, h3.2.2.2⟩
    rw [h1, h2]; exact fun e => absurd (Except.ok.inj e) (by decide)

/-! ### C11 -/

/-- C11: the counter is the number of occupied sites. -/
theorem C11_counter (h : Reach env v L S) : S.occupiedCount = occCount L S.Occ := by
  obtain ⟨_, A, M, hA⟩ := h.sim
  rw [M.count, M.occ_eq]; exact hA.count

/-- C11: `occupation_prob()` is that number divided by `L²`. -/
theorem C11_occupation_prob (h : Reach env v L S) :
    S.occupationProb env = env.ar.div (env.ar.ofNat (occCount L S.Occ)) (env.ar.ofNat (L * L)) := by
  rw [Perc.occupationProb, C11_counter h]
  obtain ⟨_, A, M, hA⟩ := h.sim
  rw [M.lat, mkLat_siteCount]

example : ∃ S, Reach demoEnv .l0 3 S ∧ S.occupiedCount = 6 ∧ S.largestCluster = 16 ∧ S.largestId = 15 := by
  obtain ⟨S, h, hp⟩ := checkOps_reach (env := demoEnv) (v := .l0) (L := 3) (ops := demoOps)
    (p := fun S => S.occupiedCount == 6 && (S.largestCluster == 16 && S.largestId == 15)) (by decide +kernel)
  simp only [Bool.and_eq_true, beq_iff_eq] at hp
  exact ⟨S, h, hp⟩

/-! ### C12, C13 -/

/-- C12: `largest_cluster()` is the maximal bond count, attained by the cluster `largest_cluster_id`. -/
theorem C12_largest (h : Reach env v L S) (hp : ∃ s, S.Occ s) :
    (∀ g : Nat, g < 2 * (L * L) → ∃ n, S.pool.bondCount (g : Int) = .ok n ∧ n ≤ S.largestCluster) ∧
    (∃ g : Nat, g < 2 * (L * L) ∧ S.largestId = g ∧ S.pool.bondCount (g : Int) = .ok S.largestCluster) := by
  obtain ⟨_, A, M, hA⟩ := h.sim
  have I := hA.largest
  have hc : 0 < A.count := by
    obtain ⟨s, hs⟩ := hp
    rw [M.occ_eq] at hs
    rw [hA.count]
    unfold occCount
    classical
    exact Finset.card_pos.2 ⟨s, Finset.mem_filter.2 ⟨Finset.mem_range.2 hs.1, hs⟩⟩
  obtain ⟨h1, h2, h3⟩ := I.pos hc
  refine ⟨fun g hg => ⟨_, M.bondCount (natCast_mem_gids hg), ?_⟩, ?_⟩
  · have := I.le _ (natCast_mem_gids hg)
    rw [Perc.largestCluster, M.lsz]; omega
  · obtain ⟨g, hg, e⟩ := exists_nat_of_mem_gids h1
    refine ⟨g, hg, M.lid.trans e, ?_⟩
    rw [M.bondCount (natCast_mem_gids hg), Perc.largestCluster, M.lsz, ← e, h2]

/-- C12: `largest_cluster()` is the number of bonds of a largest connected component. -/
theorem C12_largest_component (h : Reach env v L S) (hp : ∃ s, S.Occ s) :
    (∃ X ∈ bondComps L S.Occ, X.card = S.largestCluster) ∧ ∀ X ∈ bondComps L S.Occ, X.card ≤ S.largestCluster := by
  classical
  obtain ⟨_, A, M, hA⟩ := h.sim
  have C := hA.inv.core
  obtain ⟨h1, g, hg, _, h2⟩ := C12_largest h hp
  rw [M.bondCount (natCast_mem_gids hg)] at h2
  rw [M.occ_eq, C.bondComps_eq]
  have hc : ∀ g ∈ gids L, ((A.P.cb g).toFinset).card = A.P.len g := fun g hg =>
    List.toFinset_card_of_nodup (C.ndb g (mem_gids.1 hg).1 (mem_gids.1 hg).2)
  constructor
  · refine ⟨(A.P.cb g).toFinset, Finset.mem_image.2 ⟨g, Finset.mem_filter.2 ⟨natCast_mem_gids hg, ?_⟩, rfl⟩, ?_⟩
    · obtain ⟨s, hs⟩ := hp
      rw [M.occ_eq] at hs
      obtain ⟨g', hg', e⟩ := exists_nat_of_mem_gids (mem_gids.2 (C.bgr _ (bondAt_lt hs.1 .right)))
      obtain ⟨n, hn, hle⟩ := h1 g' hg'
      rw [M.bondCount (natCast_mem_gids hg')] at hn
      have : 0 < A.P.len g' := e ▸ C.len_pos hs.1 ⟨.right, rfl⟩
      have := Except.ok.inj h2
      have := Except.ok.inj hn
      omega
    · rw [hc _ (natCast_mem_gids hg)]; exact Except.ok.inj h2
  · intro X hX
    obtain ⟨g', hg', rfl⟩ := Finset.mem_image.1 hX
    rw [Finset.mem_filter] at hg'
    obtain ⟨g'', hg'', rfl⟩ := exists_nat_of_mem_gids hg'.1
    obtain ⟨n, hn, hle⟩ := h1 g'' hg''
    rw [M.bondCount hg'.1] at hn
    rw [hc _ hg'.1, Except.ok.inj hn]; exact hle

/-- C12: before any placement it is 0. -/
theorem C12_empty (h : Reach env v L S) (hp : ∀ s, ¬ S.Occ s) : S.largestCluster = 0 ∧ S.largestId = -1 := by
  obtain ⟨_, A, M, hA⟩ := h.sim
  have hc : A.count = 0 := by
    rw [hA.count]
    unfold occCount
    classical
    rw [Finset.card_eq_zero, Finset.filter_eq_empty_iff]
    intro s _; rw [← M.occ_iff]; exact hp s
  have := hA.largest.zero hc
  exact ⟨M.lsz.trans this.1, M.lid.trans this.2⟩

theorem AStep.lsz_mono {A A' : Abs α} (h : AStep env L A A') : A.lsz ≤ A'.lsz := by
  cases h with
  | @place k r V' P' hk hu E _ =>
    show _ ≤ (if (P'.cb r).length > A.lsz then _ else _)
    split <;> omega
  | tick h => exact le_rfl
  | detect _ _ _ _ => exact le_rfl
  | reselect _ _ => exact le_rfl

theorem ASteps.lsz_mono {A A' : Abs α} (h : ASteps env L A A') : A.lsz ≤ A'.lsz := by
  induction h with
  | refl => exact le_rfl
  | tail _ h2 ih => exact ih.trans h2.lsz_mono

/-- C13: no call other than `reset` decreases `largest_cluster()`. -/
theorem C13_monotone (h : Reach env v L S) {op : Op} (hs : step env v S op = .ok S') (hr : op.isReset = false) :
    S.largestCluster ≤ S'.largestCluster := by
  obtain ⟨_, A, M, hA⟩ := h.sim
  rcases step_steps M hA.inv hs with ⟨h', _⟩ | ⟨_, A', h1, M'⟩
  · rw [hr] at h'; cases h'
  · rw [Perc.largestCluster, Perc.largestCluster, M.lsz, M'.lsz]; exact h1.lsz_mono

/-- C13: it is at most `2 L²`. -/
theorem C13_bounded (h : Reach env v L S) : S.largestCluster ≤ 2 * (L * L) := by
  obtain ⟨_, A, M, hA⟩ := h.sim
  rw [Perc.largestCluster, M.lsz]
  rcases Nat.eq_zero_or_pos A.count with h0 | h0
  · rw [(hA.largest.zero h0).1]; exact Nat.zero_le _
  · obtain ⟨h1, h2, _⟩ := hA.largest.pos h0
    rw [← h2]; exact hA.inv.core.len_le h1

/-- C13: it is `2 L²` when every site is occupied. -/
theorem C13_full (h : Reach env v L S) (hf : ∀ s < L * L, S.Occ s) : S.largestCluster = 2 * (L * L) := by
  have hb := C13_bounded h
  obtain ⟨hL, A, M, hA⟩ := h.sim
  have C := hA.inv.core
  have hLL : 0 < L * L := Nat.mul_pos hL hL
  rw [M.occ_eq] at hf
  have := C.full_len hf (b := 0) (by omega)
  have hle := hA.largest.le _ (mem_gids.2 (C.bgr 0 (by omega)))
  rw [Perc.largestCluster, M.lsz] at *
  omega

/-! ### C51 -/

theorem view_eq (L : Nat) (P : PV) : (mkPool (2 * (L * L)) P).view = ∑ g ∈ gids L, (mkCluster P g).view := by
  rw [← sum_clusters_map]
  unfold ClusterPool.view
  generalize (mkPool (2 * (L * L)) P).clusters = cs
  have : ∀ n, cs.foldl (fun counter c => counter + c.view) n = n + (cs.map OneCluster.view).sum := by
    induction cs with
    | nil => intro n; simp
    | cons c cs ih => intro n; rw [List.foldl_cons, ih, List.map_cons, List.sum_cons]; omega
  rw [this, Nat.zero_add]

theorem Core.view {V : LV} {P : PV} (C : Core L V P) : (mkPool (2 * (L * L)) P).view = (bondComps L (VOcc L V)).card := by
  classical
  have := C.sum_comps (fun n => if n = 0 then 0 else 1) rfl
  rw [view_eq, Finset.card_eq_sum_ones]
  have hX : ∀ X ∈ bondComps L (VOcc L V), (if X.card = 0 then 0 else 1) = 1 := by
    intro X hX
    rw [bondComps, Finset.mem_image] at hX
    obtain ⟨b, hb, rfl⟩ := hX
    refine if_neg (Finset.card_ne_zero_of_mem (a := b) ?_)
    rw [bondComp, Finset.mem_filter]; exact ⟨hb, BondConn.refl _⟩
  rw [← Finset.sum_congr rfl hX, this]
  refine Finset.sum_congr rfl fun g hg => ?_
  have hv : ∀ c : OneCluster, c.view = if c.siteIds.length = 0 ∧ c.bondIds.length = 0 then 0 else 1 := by
    intro c; simp [OneCluster.view, OneCluster.isEmpty]
  rw [hv]
  by_cases h : P.len g = 0
  · rw [if_pos h, if_pos ⟨by show (P.cs g).length = 0; rw [C.cs_nil hg h]; rfl, h⟩]
  · rw [if_neg h, if_neg (fun h' => h h'.2)]

/-- C51: `ClusterPool.view()` reports the number of connected components of bonds. -/
theorem C51_view_components (h : Reach env v L S) : S.pool.view = (bondComps L S.Occ).card := by
  obtain ⟨_, A, M, hA⟩ := h.sim
  rw [M.pool, M.occ_eq]; exact hA.inv.core.view

/-- C51: it is `2 L²` when nothing is occupied. -/
theorem C51_initial (h : Reach env v L S) (hp : ∀ s, ¬ S.Occ s) : S.pool.view = 2 * (L * L) := by
  classical
  rw [C51_view_components h, bondComps, Finset.card_image_of_injOn, Finset.card_range]
  intro b hb b' hb' e
  have : b ∈ bondComp L S.Occ b' := by
    rw [← show bondComp L S.Occ b = bondComp L S.Occ b' from e, bondComp, Finset.mem_filter]
    exact ⟨hb, BondConn.refl _⟩
  rw [bondComp, Finset.mem_filter] at this
  rcases this.2.eq_or_occ with h' | ⟨s, hs, _⟩
  · exact h'.symm
  · exact absurd hs (hp s)

/-- C51: it is 1 when every site is occupied. -/
theorem C51_full (h : Reach env v L S) (hf : ∀ s < L * L, S.Occ s) : S.pool.view = 1 := by
  classical
  rw [C51_view_components h]
  obtain ⟨hL, A, M, hA⟩ := h.sim
  have hLL : 0 < L * L := Nat.mul_pos hL hL
  rw [M.occ_eq] at hf ⊢
  rw [Finset.card_eq_one]
  refine ⟨bondComp L (VOcc L A.V) 0, ?_⟩
  ext X
  rw [Finset.mem_singleton, bondComps, Finset.mem_image]
  constructor
  · rintro ⟨b, hb, rfl⟩
    rw [Finset.mem_range] at hb
    rw [hA.inv.core.bondComp_eq hb, hA.inv.core.bondComp_eq (by omega), hA.inv.core.full hf hb (b' := 0) (by omega)]
  · rintro rfl; exact ⟨0, Finset.mem_range.2 (by omega), rfl⟩

open Classical in
/-- C51: a successful placement of `k` lowers it by the number of components adjacent to `k` minus one. -/
theorem C51_step (h : Reach env v L S) {d : Draw} {b : Bool} (hp : S.placeOneSite env v d = .ok (S', b))
    (hf : S'.selectionFlag = some .success) :
    ∃ k, S'.selected = some k ∧
      S'.pool.view + (Dir.all.map fun d => bondComp L S.Occ (bondAt L k d)).toFinset.card = S.pool.view + 1 := by
  obtain ⟨_, A, M, hA⟩ := h.sim
  have C := hA.inv.core
  obtain ⟨_, V1, hV, h | h | h⟩ := placeOneSite_sim M hA.inv hp
  rotate_left
  · rw [h.1] at hf; cases hf
  · rw [h.1] at hf; cases hf
  obtain ⟨_, _, k, r, V', P', hk, hg, E, hr, hsel, M'⟩ := h
  refine ⟨k, hsel, ?_⟩
  have C1 := C.same hV
  have hg1 : V1.sg k = -1 := by rw [hV.1]; exact hg
  have C' := E.core C1 hk hg1
  have e0 := C1.sum_comps (fun n => if n = 0 then 0 else (1 : Int)) rfl
  have e1 := C'.sum_comps (fun n => if n = 0 then 0 else (1 : Int)) rfl
  have e2 := E.sum_len (fun n => if n = 0 then 0 else (1 : Int)) rfl C1 hk
  have hcard : ∀ {V : LV}, ∑ X ∈ bondComps L (VOcc L V), (if X.card = 0 then 0 else (1 : Int)) = ((bondComps L (VOcc L V)).card : Int) := by
    intro V
    rw [Finset.card_eq_sum_ones, Nat.cast_sum]
    refine Finset.sum_congr rfl fun X hX => ?_
    rw [bondComps, Finset.mem_image] at hX
    obtain ⟨b, hb, rfl⟩ := hX
    refine if_neg (Finset.card_ne_zero_of_mem (a := b) ?_)
    rw [bondComp, Finset.mem_filter]; exact ⟨hb, BondConn.refl _⟩
  have e3 : ∑ g ∈ adjSet L V1 k, (if A.P.len g = 0 then 0 else (1 : Int)) = ((adjSet L V1 k).card : Int) := by
    rw [Finset.card_eq_sum_ones, Nat.cast_sum]
    refine Finset.sum_congr rfl fun g hg => if_neg ?_
    have := C1.len_pos hk (mem_adjSet.1 hg)
    omega
  have e4 : (if P'.len r = 0 then 0 else (1 : Int)) = 1 := by
    have := C1.len_pos hk E.adj
    have := E.len_le_root E.adj
    exact if_neg (by omega)
  have e5 : (Dir.all.map fun d => bondComp L S.Occ (bondAt L k d)).toFinset = (adjSet L V1 k).image fun g => (A.P.cb g).toFinset := by
    ext X
    rw [M.occ_eq, ← hV.vocc, List.mem_toFinset, List.mem_map, Finset.mem_image]
    constructor
    · rintro ⟨d, _, rfl⟩
      exact ⟨V1.bg (bondAt L k d), mem_adjSet.2 ⟨d, rfl⟩, (C1.bondComp_eq (bondAt_lt hk d)).symm⟩
    · rintro ⟨g, hg, rfl⟩
      obtain ⟨d, rfl⟩ := mem_adjSet.1 hg
      exact ⟨d, Dir.mem_all d, C1.bondComp_eq (bondAt_lt hk d)⟩
  have e6 : ((adjSet L V1 k).image fun g => (A.P.cb g).toFinset).card = (adjSet L V1 k).card := by
    apply Finset.card_image_of_injOn
    intro g hg g' hg' e
    have hgr := (mem_gids.1 (adjSet_subset C1 hk hg))
    have hgr' := (mem_gids.1 (adjSet_subset C1 hk hg'))
    obtain ⟨b, hb⟩ := List.exists_mem_of_ne_nil _ (C1.adj_nonempty hk (mem_adjSet.1 hg))
    have hb' : b ∈ (A.P.cb g').toFinset := by
      rw [← show (A.P.cb g).toFinset = (A.P.cb g').toFinset from e]; exact List.mem_toFinset.2 hb
    rw [← ((C1.memb g hgr.1 hgr.2 b).1 hb).2, ← ((C1.memb g' hgr'.1 hgr'.2 b).1 (List.mem_toFinset.1 hb')).2]
  have e7 : S'.pool.view = (bondComps L (VOcc L V')).card := by rw [M'.pool]; exact C'.view
  have e8 : S.pool.view = (bondComps L (VOcc L V1)).card := by rw [M.pool]; exact C1.view
  rw [hcard] at e0 e1
  rw [e3, e4] at e2
  rw [e5, e6, e7, e8]
  omega

/-- Two components are merged by placing site 1: eleven bonds join. -/
example : ∃ S S', Reach demoEnv .l0 4 S ∧ step demoEnv .l0 S .place0 = .ok S' ∧ S.pool.view = 23 ∧ S'.pool.view = 20 := by
  obtain ⟨S, h, hp⟩ := checkOps_reach (env := demoEnv) (v := .l0) (L := 4) (ops := placeInOrder [0, 5, 10, 1] 3)
    (p := fun S => S.pool.view == 23 && match step demoEnv .l0 S .place0 with
      | .ok S' => S'.pool.view == 20
      | .error _ => false) (by decide +kernel)
  simp only [Bool.and_eq_true, beq_iff_eq] at hp
  cases hq : step demoEnv .l0 S .place0 with
  | error e => rw [hq] at hp; cases hp.2
  | ok S' =>
    rw [hq] at hp
    exact ⟨S, S', h, hq, hp.1, by simpa using hp.2⟩

end SqPerc
