import Verif.Model.Perc
import Verif.Proof.LatticeNew
/-
Functional views: a lattice of the right shape is determined by five functions (gids of sites and bonds, relative indices, neighbour counters), a
cluster pool by four.  The lattice and pool operations are updates of these functions.
-/
namespace SqPerc

/-- Changing part of a lattice. -/
structure LV where
  sg : Nat → Int
  rel : Nat → Idx
  n1 : Nat → Int
  n2 : Nat → Int
  bg : Nat → Int

/-- Cluster pool as functions of the cluster position. -/
structure PV where
  cs : Int → List Nat
  cb : Int → List Nat
  cg : Int → Int
  ci : Int → Int
  next : Int

/-- Site object `i`. -/
def mkSite (L : Nat) (V : LV) (i : Nat) : Site :=
  { idealSite L i with gid := V.sg i, rel := V.rel i, nn1 := V.n1 i, nn2 := V.n2 i }

/-- Bond object `b`. -/
def mkBond (L : Nat) (V : LV) (b : Nat) : Bond := { idealBond L b with gid := V.bg b }

/-- The lattice with view `V`. -/
def mkLat (L : Nat) (V : LV) : Lattice :=
  { length := L, sites := (List.range (L * L)).map (mkSite L V), bonds := (List.range (2 * (L * L))).map (mkBond L V) }

/-- Cluster object at position `g`. -/
def mkCluster (P : PV) (g : Int) : OneCluster := ⟨P.cs g, P.cb g, P.cg g, P.ci g⟩

/-- The pool with view `P` and `N` clusters. -/
def mkPool (N : Nat) (P : PV) : ClusterPool :=
  { clusters := (List.range N).map fun g : Nat => mkCluster P (g : Int), nextId := P.next }

theorem mkLat_congr {L : Nat} {V W : LV} (h1 : ∀ i < L * L, V.sg i = W.sg i ∧ V.rel i = W.rel i ∧ V.n1 i = W.n1 i ∧ V.n2 i = W.n2 i)
    (h2 : ∀ b < 2 * (L * L), V.bg b = W.bg b) : mkLat L V = mkLat L W := by
  unfold mkLat
  congr 1
  · exact map_range_congr fun i hi => by
      obtain ⟨a, b, c, d⟩ := h1 i hi
      simp [mkSite, a, b, c, d]
  · exact map_range_congr fun i hi => by simp [mkBond, h2 i hi]

section lattice
variable {L : Nat} {V : LV}

@[simp] theorem mkLat_length : (mkLat L V).length = L := rfl
@[simp] theorem mkLat_siteCount : (mkLat L V).siteCount = L * L := by simp [Lattice.siteCount, Nat.pow_two]
@[simp] theorem mkLat_bondCount : (mkLat L V).bondCount = 2 * (L * L) := by simp [Lattice.bondCount, Nat.pow_two]

theorem getSite_mk {i : Nat} (h : i < L * L) : (mkLat L V).getSite i = .ok (mkSite L V i) := by
  simp only [Lattice.getSite, mkLat]; exact pyGet_map_range _ _ _ h

theorem getSite_mk_error {i : Nat} (h : L * L ≤ i) : (mkLat L V).getSite i = .error .indexError := by
  simp only [Lattice.getSite, mkLat]; exact pyGet_map_range_error _ _ _ h

theorem getBond_mk {b : Nat} (h : b < 2 * (L * L)) : (mkLat L V).getBond b = .ok (mkBond L V b) := by
  simp only [Lattice.getBond, mkLat]; exact pyGet_map_range _ _ _ h

theorem getBond_mk_error {b : Nat} (h : 2 * (L * L) ≤ b) : (mkLat L V).getBond b = .error .indexError := by
  simp only [Lattice.getBond, mkLat]; exact pyGet_map_range_error _ _ _ h

theorem getSiteGid_mk {i : Nat} (h : i < L * L) : (mkLat L V).getSiteGid i = .ok (V.sg i) := by
  simp only [Lattice.getSiteGid, getSite_mk h]; rfl

theorem getBondGid_mk {b : Nat} (h : b < 2 * (L * L)) : (mkLat L V).getBondGid b = .ok (V.bg b) := by
  simp only [Lattice.getBondGid, getBond_mk h]; rfl

/-- The four bonds of a site. -/
def siteBonds (L s : Nat) : List Nat := [bondAt L s .right, bondAt L s .down, bondAt L s .left, bondAt L s .up]

theorem siteBonds_eq (L s : Nat) : siteBonds L s = Dir.all.map (bondAt L s) := rfl

theorem getNeighborBonds_mk {i : Nat} (h : i < L * L) : (mkLat L V).getNeighborBonds i = .ok (siteBonds L i) := by
  simp only [Lattice.getNeighborBonds, getSite_mk h]; rfl

theorem getNeighborSites_mk {b : Nat} (h : b < 2 * (L * L)) : (mkLat L V).getNeighborSites b = .ok (bondSites L b) := by
  simp only [Lattice.getNeighborSites, getBond_mk h]; rfl

theorem bondSites_perm {k : Nat} (h : k < L * L) (d : Dir) :
    bondSites L (bondAt L k d) = [k, nbr L k d] ∨ bondSites L (bondAt L k d) = [nbr L k d, k] := by
  unfold bondSites
  rcases bondEnds_bondAt h d with e | e <;> rw [e] <;> simp only
  · rcases Nat.le_total k (nbr L k d) with h0 | h0
    · left; rw [Nat.min_eq_left h0, Nat.max_eq_right h0]
    · right; rw [Nat.min_eq_right h0, Nat.max_eq_left h0]
  · rcases Nat.le_total (nbr L k d) k with h0 | h0
    · right; rw [Nat.min_eq_left h0, Nat.max_eq_right h0]
    · left; rw [Nat.min_eq_right h0, Nat.max_eq_left h0]

theorem remove_bondSites {k : Nat} (h : k < L * L) (d : Dir) :
    pyRemove (bondSites L (bondAt L k d)) k = .ok [nbr L k d] := by
  rcases bondSites_perm h d with e | e <;> rw [e]
  · simp [pyRemove]
  · by_cases h2 : nbr L k d = k
    · simp [pyRemove, h2]
    · simp [pyRemove, h2]

theorem otherEnd_mk {k : Nat} (h : k < L * L) (d : Dir) : (mkLat L V).otherEnd k (bondAt L k d) = .ok (nbr L k d) := by
  simp only [Lattice.otherEnd, getNeighborSites_mk (bondAt_lt h d)]
  show (pyRemove (bondSites L (bondAt L k d)) k >>= fun nn => pyGet nn 0) = _
  rw [remove_bondSites h d]; rfl

/-- Point update. -/
def upd {α : Type} (f : Nat → α) (i : Nat) (v : α) : Nat → α := fun j => if j = i then v else f j

/-- Point update at an `Int` position. -/
def updI {α : Type} (f : Int → α) (i : Int) (v : α) : Int → α := fun j => if j = i then v else f j

@[simp] theorem upd_same {α : Type} (f : Nat → α) (i : Nat) (v : α) : upd f i v i = v := by simp [upd]
theorem upd_ne {α : Type} (f : Nat → α) (i : Nat) (v : α) {j : Nat} (h : j ≠ i) : upd f i v j = f j := by simp [upd, h]

theorem modify_site_mk {i : Nat} (h : i < L * L) (f : Site → Site) (W : LV)
    (h1 : f (mkSite L V i) = mkSite L W i) (h2 : ∀ j < L * L, j ≠ i → mkSite L V j = mkSite L W j) (h3 : W.bg = V.bg) :
    (do let sts ← pyModify (mkLat L V).sites i f; return { mkLat L V with sites := sts } : Py Lattice) = .ok (mkLat L W) := by
  simp only [mkLat, pyModify_map_range _ _ _ _ h]
  show Except.ok _ = _
  congr 2
  · apply map_range_congr
    intro j hj
    by_cases hji : j = i
    · subst hji; simp [h1]
    · simp [hji, h2 j hj hji]
  · apply map_range_congr
    intro b _
    simp [mkBond, h3]

theorem setSiteGid_mk {i : Nat} (h : i < L * L) (g : Int) :
    (mkLat L V).setSiteGid i g = .ok (mkLat L { V with sg := upd V.sg i g }) := by
  refine modify_site_mk h _ _ ?_ ?_ rfl
  · simp [mkSite]
  · intro j _ hj; simp [mkSite, upd, hj]

theorem setRelativeIndex_mk {i : Nat} (h : i < L * L) (r : Idx) :
    (mkLat L V).setRelativeIndex i r = .ok (mkLat L { V with rel := upd V.rel i r }) := by
  refine modify_site_mk h _ _ ?_ ?_ rfl
  · simp [mkSite]
  · intro j _ hj; simp [mkSite, upd, hj]

theorem initRelativeIndex_mk {i : Nat} (h : i < L * L) :
    (mkLat L V).initRelativeIndex i = .ok (mkLat L { V with rel := upd V.rel i ⟨0, 0⟩ }) := by
  refine modify_site_mk h _ _ ?_ ?_ rfl
  · simp [mkSite, Site.initRel]
  · intro j _ hj; simp [mkSite, upd, hj]

theorem setBondGid_mk {b : Nat} (h : b < 2 * (L * L)) (g : Int) :
    (mkLat L V).setBondGid b g = .ok (mkLat L { V with bg := upd V.bg b g }) := by
  simp only [Lattice.setBondGid, mkLat, pyModify_map_range _ _ _ _ h]
  show Except.ok _ = _
  congr 2
  apply map_range_congr
  intro j _
  by_cases hj : j = b
  · subst hj; simp [mkBond]
  · simp [mkBond, upd, hj]

theorem assignSites_mk (g : Int) (ids : List Nat) (h : ∀ i ∈ ids, i < L * L) :
    ClusterPool.assignSites g ids (mkLat L V) = .ok (mkLat L { V with sg := fun j => if j ∈ ids then g else V.sg j }) := by
  induction ids generalizing V with
  | nil => simp [ClusterPool.assignSites]; rfl
  | cons i ids ih =>
    have : ClusterPool.assignSites g (i :: ids) (mkLat L V) =
      ((mkLat L V).setSiteGid i g >>= fun lat => ClusterPool.assignSites g ids lat) := rfl
    rw [this, setSiteGid_mk (h i (by simp))]
    show ClusterPool.assignSites g ids _ = _
    rw [ih (fun j hj => h j (by simp [hj]))]
    congr 3
    funext j
    by_cases h1 : j ∈ ids
    · simp [h1]
    · by_cases h2 : j = i <;> simp [h1, h2, upd]

theorem assignBonds_mk (g : Int) (ids : List Nat) (h : ∀ i ∈ ids, i < 2 * (L * L)) :
    ClusterPool.assignBonds g ids (mkLat L V) = .ok (mkLat L { V with bg := fun j => if j ∈ ids then g else V.bg j }) := by
  induction ids generalizing V with
  | nil => simp [ClusterPool.assignBonds]; rfl
  | cons i ids ih =>
    have : ClusterPool.assignBonds g (i :: ids) (mkLat L V) =
      ((mkLat L V).setBondGid i g >>= fun lat => ClusterPool.assignBonds g ids lat) := rfl
    rw [this, setBondGid_mk (h i (by simp))]
    show ClusterPool.assignBonds g ids _ = _
    rw [ih (fun j hj => h j (by simp [hj]))]
    congr 3
    funext j
    by_cases h1 : j ∈ ids
    · simp [h1]
    · by_cases h2 : j = i <;> simp [h1, h2, upd]

theorem shiftSites_mk (δ : Idx) (ids : List Nat) (h : ∀ i ∈ ids, i < L * L) (hn : ids.Nodup) :
    Perc.shiftSites δ ids (mkLat L V) =
      .ok (mkLat L { V with rel := fun j => if j ∈ ids then (V.rel j).add δ else V.rel j }) := by
  induction ids generalizing V with
  | nil => simp [Perc.shiftSites]
  | cons i ids ih =>
    have hi := h i (by simp)
    have hm := modify_site_mk (V := V) hi (fun s => { s with rel := s.rel.add δ })
      { V with rel := upd V.rel i ((V.rel i).add δ) } (by simp [mkSite]) (by intro j _ hj; simp [mkSite, upd, hj]) rfl
    have : Perc.shiftSites δ (i :: ids) (mkLat L V) =
      ((do let sts ← pyModify (mkLat L V).sites i fun s => { s with rel := s.rel.add δ }
           return { mkLat L V with sites := sts } : Py Lattice) >>= fun lat => Perc.shiftSites δ ids lat) := by
      simp only [Perc.shiftSites]
      cases pyModify (mkLat L V).sites i fun s => { s with rel := s.rel.add δ } <;> rfl
    rw [this, hm]
    show Perc.shiftSites δ ids _ = _
    rw [ih (fun j hj => h j (by simp [hj])) (List.nodup_cons.1 hn).2]
    congr 3
    funext j
    have hni := (List.nodup_cons.1 hn).1
    by_cases h1 : j = i
    · subst h1; simp [hni]
    · by_cases h2 : j ∈ ids <;> simp [h1, h2, upd]

end lattice

/-! ### Cluster pool -/

theorem pyGetI_mkPool {N : Nat} {P : PV} {g : Int} (h0 : 0 ≤ g) (h1 : g < N) :
    pyGetI (mkPool N P).clusters g = .ok (mkCluster P g) := by
  have : g.toNat < N := by omega
  simp only [pyGetI, h0, if_true, mkPool, pyGet_map_range _ _ _ this]
  rw [Int.toNat_of_nonneg h0]

theorem bondCount_mk {N : Nat} {P : PV} {g : Int} (h0 : 0 ≤ g) (h1 : g < N) :
    (mkPool N P).bondCount g = .ok (P.cb g).length := by
  simp only [ClusterPool.bondCount, pyGetI_mkPool h0 h1]; rfl

theorem siteCount_mk {N : Nat} {P : PV} {g : Int} (h0 : 0 ≤ g) (h1 : g < N) :
    (mkPool N P).siteCount g = .ok (P.cs g).length := by
  simp only [ClusterPool.siteCount, pyGetI_mkPool h0 h1]; rfl

theorem getSites_mk {N : Nat} {P : PV} {g : Int} (h0 : 0 ≤ g) (h1 : g < N) :
    (mkPool N P).getSites g = .ok (P.cs g) := by
  simp only [ClusterPool.getSites, pyGetI_mkPool h0 h1]; rfl

theorem getBonds_mk {N : Nat} {P : PV} {g : Int} (h0 : 0 ≤ g) (h1 : g < N) :
    (mkPool N P).getBonds g = .ok (P.cb g) := by
  simp only [ClusterPool.getBonds, pyGetI_mkPool h0 h1]; rfl

theorem modify_cluster_mk {N : Nat} {P : PV} {g : Int} (h0 : 0 ≤ g) (h1 : g < N) (f : OneCluster → OneCluster) (Q : PV)
    (e1 : f (mkCluster P g) = mkCluster Q g) (e2 : ∀ j, j ≠ g → mkCluster P j = mkCluster Q j) (e3 : Q.next = P.next) :
    (do let cs ← pyModifyI (mkPool N P).clusters g f; return { mkPool N P with clusters := cs } : Py ClusterPool) =
      .ok (mkPool N Q) := by
  have hg : g.toNat < N := by omega
  simp only [pyModifyI, h0, if_true, mkPool, pyModify_map_range _ _ _ _ hg]
  show Except.ok _ = _
  rw [e3]
  congr 2
  apply map_range_congr
  intro j _
  by_cases hj : j = g.toNat
  · subst hj; simp only [if_true]; rw [Int.toNat_of_nonneg h0]; exact e1
  · rw [if_neg hj]; exact e2 _ (by omega)

theorem addSite_mk {N : Nat} {P : PV} {g : Int} (h0 : 0 ≤ g) (h1 : g < N) (k : Nat) :
    (mkPool N P).addSite g k = .ok (mkPool N { P with cs := updI P.cs g (P.cs g ++ [k]) }) := by
  refine modify_cluster_mk h0 h1 _ _ ?_ ?_ rfl
  · simp [mkCluster, updI]
  · intro j hj; simp [mkCluster, updI, hj]

theorem clearCluster_mk {N : Nat} {P : PV} {g : Int} (h0 : 0 ≤ g) (h1 : g < N) :
    (mkPool N P).clearCluster g =
      .ok (mkPool N { P with cs := updI P.cs g [], cb := updI P.cb g [], cg := updI P.cg g (-1), ci := updI P.ci g (-1) }) := by
  refine modify_cluster_mk h0 h1 _ _ ?_ ?_ rfl
  · simp [mkCluster, updI, OneCluster.clear]
  · intro j hj; simp [mkCluster, updI, hj]

theorem mergeClusterWith_mk {N L : Nat} {P : PV} {V : LV} {r g : Int} (r0 : 0 ≤ r) (r1 : r < N) (g0 : 0 ≤ g) (g1 : g < N)
    (hs : ∀ i ∈ P.cs g, i < L * L) (hb : ∀ i ∈ P.cb g, i < 2 * (L * L)) :
    (mkPool N P).mergeClusterWith r g (mkLat L V) =
      .ok (mkPool N { P with cs := updI P.cs r (P.cs r ++ P.cs g), cb := updI P.cb r (P.cb r ++ P.cb g) },
        mkLat L { V with bg := fun j => if j ∈ P.cb g then P.cg r else V.bg j,
                         sg := fun j => if j ∈ P.cs g then P.cg r else V.sg j }) := by
  have hm := modify_cluster_mk (N := N) (P := P) r0 r1
    (fun c => { c with bondIds := c.bondIds ++ P.cb g, siteIds := c.siteIds ++ P.cs g })
    { P with cs := updI P.cs r (P.cs r ++ P.cs g), cb := updI P.cb r (P.cb r ++ P.cb g) }
    (by simp [mkCluster, updI]) (by intro j hj; simp [mkCluster, updI, hj]) rfl
  simp only [ClusterPool.mergeClusterWith, pyGetI_mkPool r0 r1, pyGetI_mkPool g0 g1]
  show (ClusterPool.assignBonds (P.cg r) (P.cb g) (mkLat L V) >>= _) = _
  rw [assignBonds_mk _ _ hb]
  show (ClusterPool.assignSites (P.cg r) (P.cs g) (mkLat L _) >>= _) = _
  rw [assignSites_mk _ _ hs]
  simp only [mkCluster]
  revert hm
  show ((pyModifyI (mkPool N P).clusters r (fun c => { c with bondIds := c.bondIds ++ P.cb g, siteIds := c.siteIds ++ P.cs g }) >>=
      fun cs => (.ok { mkPool N P with clusters := cs } : Py ClusterPool)) = _) →
    ((pyModifyI (mkPool N P).clusters r (fun c => { c with bondIds := c.bondIds ++ P.cb g, siteIds := c.siteIds ++ P.cs g }) >>=
      fun cs => (.ok (({ mkPool N P with clusters := cs } : ClusterPool), _) : Py (ClusterPool × Lattice))) = _)
  generalize pyModifyI (mkPool N P).clusters r
    (fun c => { c with bondIds := c.bondIds ++ P.cb g, siteIds := c.siteIds ++ P.cs g }) = m
  cases m with
  | error e => intro h; cases h
  | ok m =>
    intro h
    have h' : (.ok { mkPool N P with clusters := m } : Py ClusterPool) = _ := h
    rw [Except.ok.injEq] at h'
    show Except.ok _ = Except.ok _
    rw [h']

/-! ### Construction of the clusters -/

/-- The view right after construction: no site occupied, every bond its own cluster. -/
def LV.init : LV := { sg := fun _ => -1, rel := fun _ => Idx.zero, n1 := fun _ => 4, n2 := fun _ => 4, bg := fun b => b }

/-- The pool after `n` singletons have been created. -/
def PV.init (n : Nat) : PV := { cs := fun _ => [], cb := fun g => [g.toNat], cg := fun g => g, ci := fun g => g, next := n }

/-- The view `init` with all bond gids from `n` on still -1. -/
def LV.initStage (n : Nat) : LV := { LV.init with bg := fun b => if b < n then b else -1 }

theorem idealLattice_eq (L : Nat) : idealLattice L = mkLat L (LV.initStage 0) := by
  unfold idealLattice mkLat
  congr 1

theorem initClusters_mk (L : Nat) :
    initClusters (mkLat L (LV.initStage 0)) = .ok (mkPool (2 * (L * L)) (PV.init (2 * (L * L))), mkLat L LV.init) := by
  have key : ∀ m n, n + m = 2 * (L * L) →
      initClustersLoop ((List.range m).map (n + ·)) (mkPool n (PV.init n), mkLat L (LV.initStage n)) =
      .ok (mkPool (n + m) (PV.init (n + m)), mkLat L (LV.initStage (n + m))) := by
    intro m
    induction m with
    | zero => intro n _; rfl
    | succ m ih =>
      intro n hn
      rw [List.range_succ_eq_map, List.map_cons, List.map_map]
      have e1 : ((fun x => n + x) ∘ Nat.succ) = fun x => (n + 1) + x := by funext x; simp; omega
      have e2 : ClusterPool.createNewCluster (mkPool n (PV.init n)) [] [n + 0] (mkLat L (LV.initStage n)) =
          .ok (mkPool (n + 1) (PV.init (n + 1)), mkLat L (LV.initStage (n + 1))) := by
        simp only [ClusterPool.createNewCluster, Nat.add_zero]
        rw [assignSites_mk _ _ (by simp)]
        show (ClusterPool.assignBonds _ _ (mkLat L _) >>= _) = _
        rw [assignBonds_mk _ _ (by simp; omega)]
        show Except.ok _ = Except.ok _
        congr 2
        · simp only [mkPool, List.range_succ, List.map_append]
          congr 1
        · apply mkLat_congr
          · intro i _; simp [LV.initStage, LV.init]
          · intro b _
            simp only [LV.initStage, LV.init, List.mem_singleton, mkPool, PV.init]
            by_cases h1 : b = n
            · subst h1; simp
            · by_cases h2 : b < n
              · simp [h1, h2, Nat.lt_succ_of_lt h2]
              · have : ¬ b < n + 1 := by omega
                simp [h1, h2, this]
      simp only [initClustersLoop]
      rw [e2]
      show initClustersLoop _ (mkPool (n + 1) _, _) = _
      rw [e1, ih (n + 1) (by omega)]
      rw [show n + 1 + m = n + (m + 1) by omega]
  have h := key (2 * (L * L)) 0 (by omega)
  simp only [Nat.zero_add, List.map_id'] at h
  simp only [initClusters, mkLat_bondCount]
  have e0 : ClusterPool.empty = mkPool 0 (PV.init 0) := rfl
  rw [e0, h]
  congr 2
  apply mkLat_congr
  · intro i _; simp [LV.initStage]
  · intro b hb; simp [LV.initStage, LV.init, hb]

theorem reset_mk (L : Nat) (V : LV) : (mkLat L V).reset = mkLat L (LV.initStage 0) := by
  unfold Lattice.reset mkLat
  congr 1
  · rw [List.map_map]; apply map_range_congr; intro i _; rfl
  · rw [List.map_map]; apply map_range_congr; intro i _; rfl

end SqPerc
