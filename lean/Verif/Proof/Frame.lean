import Verif.Proof.RunSeq
/-
Fields that do not influence the growth: the reverse index, the list of occupation probabilities, the mode flags, and (before the first
placement) the stale `selected_id`.
-/
namespace SqPerc

variable {α : Type} {L : Nat} {env : Env α} {v : Variant}

/-- `S` with the fields that do not influence the growth taken from `T`. -/
def Perc.put (S T : Perc α) : Perc α :=
  { S with selected := T.selected, revIds := T.revIds, firstRun := T.firstRun, occProbList := T.occProbList, modeCustom := T.modeCustom,
           doShuffle := T.doShuffle, selectionFlag := T.selectionFlag }

theorem entropyGids_put (S T : Perc α) (bs : List Nat) : (S.put T).entropyGids bs = S.entropyGids bs := by
  induction bs with
  | nil => rfl
  | cons b bs ih => simp only [Perc.entropyGids, ih]; rfl

theorem entropyLoop_put (S T : Perc α) (gs : List Int) (h : α) : Perc.entropyLoop env (S.put T) gs h = Perc.entropyLoop env S gs h := by
  induction gs generalizing h with
  | nil => rfl
  | cons g gs ih => simp only [Perc.entropyLoop, ih]; rfl

theorem entropySubtract_put (S T : Perc α) (k : Nat) :
    (S.put T).entropySubtract env k = (S.entropySubtract env k).map (·.put T) := by
  simp only [Perc.entropySubtract, entropyGids_put, entropyLoop_put]
  show (S.lat.getNeighborBonds k >>= _) = (S.lat.getNeighborBonds k >>= _).map _
  cases S.lat.getNeighborBonds k with
  | error e => rfl
  | ok bs =>
    show (S.entropyGids bs >>= _) = (S.entropyGids bs >>= _).map _
    cases S.entropyGids bs with
    | error e => rfl
    | ok gs =>
      show (Perc.entropyLoop env S (env.set.iter gs) _ >>= _) = (Perc.entropyLoop env S (env.set.iter gs) _ >>= _).map _
      cases Perc.entropyLoop env S (env.set.iter gs) (env.ar.ofNat 0) <;> rfl

theorem entropyAdd_put (S T : Perc α) (c : Int) : (S.put T).entropyAdd env c = (S.entropyAdd env c).map (·.put T) := by
  simp only [Perc.entropyAdd]
  show (S.pool.bondCount c >>= _) = (S.pool.bondCount c >>= _).map _
  cases S.pool.bondCount c with
  | error e => rfl
  | ok n =>
    show (if n = 0 then _ else _) = Except.map _ (if n = 0 then _ else _)
    split <;> rfl

theorem trackLargest_put (S T : Perc α) (c : Int) : (S.put T).trackLargest c = (S.trackLargest c).map (·.put T) := by
  simp only [Perc.trackLargest]
  show (S.pool.bondCount c >>= _) = (S.pool.bondCount c >>= _).map _
  cases S.pool.bondCount c with
  | error e => rfl
  | ok n =>
    show Except.ok (if n > S.largestSz then _ else _) = Except.ok (Perc.put (if n > S.largestSz then _ else _) T)
    split <;> rfl

theorem assignLoop_put (T : Perc α) (k : Nat) (root : Int) (bs : List Nat) : ∀ S : Perc α,
    Perc.assignLoop k root bs (S.put T) = (Perc.assignLoop k root bs S).map (·.put T) := by
  induction bs with
  | nil => intro S; rfl
  | cons b bs ih =>
    intro S
    simp only [Perc.assignLoop]
    show (S.lat.getBondGid b >>= _) = (S.lat.getBondGid b >>= _).map _
    cases S.lat.getBondGid b with
    | error e => rfl
    | ok g =>
      show (if g = root then _ else _) = Except.map _ (if g = root then _ else _)
      split
      · show (S.lat.setSiteGid k root >>= _) = (S.lat.setSiteGid k root >>= _).map _
        cases S.lat.setSiteGid k root with
        | error e => rfl
        | ok lat =>
          show (S.pool.addSite root k >>= _) = (S.pool.addSite root k >>= _).map _
          cases S.pool.addSite root k with
          | error e => rfl
          | ok pool =>
            show (lat.otherEnd k b >>= _) = (lat.otherEnd k b >>= _).map _
            cases lat.otherEnd k b with
            | error e => rfl
            | ok n =>
              show (lat.getSiteGid n >>= _) = (lat.getSiteGid n >>= _).map _
              cases lat.getSiteGid n with
              | error e => rfl
              | ok ng =>
                show (if ng ≥ 0 then _ else _) = Except.map _ (if ng ≥ 0 then _ else _)
                split
                · show (getRelativeIndex lat n k >>= _) = (getRelativeIndex lat n k >>= _).map _
                  cases getRelativeIndex lat n k with
                  | error e => rfl
                  | ok r =>
                    show (lat.setRelativeIndex k r >>= _) = (lat.setRelativeIndex k r >>= _).map _
                    cases lat.setRelativeIndex k r with
                    | error e => rfl
                    | ok lat2 => exact ih { S with lat := lat2, pool := pool }
                · exact ih { S with lat := lat, pool := pool }
      · exact ih S

theorem relabel_put (S T : Perc α) (k b : Nat) : (S.put T).relabelRelativeIndices k b = (S.relabelRelativeIndices k b).map (·.put T) := by
  simp only [Perc.relabelRelativeIndices]
  show (S.lat.getBond b >>= _) = (S.lat.getBond b >>= _).map _
  cases S.lat.getBond b with
  | error e => rfl
  | ok bond =>
    show (S.lat.otherEnd k bond.id >>= _) = (S.lat.otherEnd k bond.id >>= _).map _
    cases S.lat.otherEnd k bond.id with
    | error e => rfl
    | ok n =>
      show (S.pool.getSites bond.gid >>= _) = (S.pool.getSites bond.gid >>= _).map _
      cases S.pool.getSites bond.gid with
      | error e => rfl
      | ok l =>
        show (if l.length = 0 then _ else _) = Except.map _ (if l.length = 0 then _ else _)
        split
        · rfl
        · show (S.lat.getSite n >>= _) = (S.lat.getSite n >>= _).map _
          cases S.lat.getSite n with
          | error e => rfl
          | ok ns =>
            show (getRelativeIndex S.lat k n >>= _) = (getRelativeIndex S.lat k n >>= _).map _
            cases getRelativeIndex S.lat k n with
            | error e => rfl
            | ok r =>
              show (S.lat.getSiteGid k >>= _) = (S.lat.getSiteGid k >>= _).map _
              cases S.lat.getSiteGid k with
              | error e => rfl
              | ok cg =>
                show (if cg ≥ 0 then _ else _) = Except.map _ (if cg ≥ 0 then _ else _)
                split
                · show (Perc.shiftSites (r.sub ns.rel) l S.lat >>= _) = (Perc.shiftSites (r.sub ns.rel) l S.lat >>= _).map _
                  cases Perc.shiftSites (r.sub ns.rel) l S.lat <;> rfl
                · rfl

theorem mergeLoop_put (T : Perc α) (k : Nat) (root : Int) (bs : List Nat) : ∀ S : Perc α,
    Perc.mergeLoop k root bs (S.put T) = (Perc.mergeLoop k root bs S).map (·.put T) := by
  induction bs with
  | nil => intro S; rfl
  | cons b bs ih =>
    intro S
    simp only [Perc.mergeLoop]
    show (S.lat.getBondGid b >>= _) = (S.lat.getBondGid b >>= _).map _
    cases S.lat.getBondGid b with
    | error e => rfl
    | ok g =>
      show (if g = root then _ else _) = Except.map _ (if g = root then _ else _)
      split
      · exact ih S
      · rw [relabel_put]
        cases S.relabelRelativeIndices k b with
        | error e => rfl
        | ok S1 =>
          show (S1.pool.mergeClusterWith root g S1.lat >>= _) = (S1.pool.mergeClusterWith root g S1.lat >>= _).map _
          cases S1.pool.mergeClusterWith root g S1.lat with
          | error e => rfl
          | ok pl => exact ih { S1 with pool := pl.1, lat := pl.2 }

theorem mergeClustersV2_put (S T : Perc α) (k : Nat) (bs : List Nat) :
    (S.put T).mergeClustersV2 env k bs = (S.mergeClustersV2 env k bs).map fun r => (r.1.put T, r.2) := by
  simp only [Perc.mergeClustersV2]
  show (Perc.uniqueBondLoop S.lat bs [] >>= _) = (Perc.uniqueBondLoop S.lat bs [] >>= _).map _
  cases Perc.uniqueBondLoop S.lat bs [] with
  | error e => rfl
  | ok ub =>
    show (Perc.getBondGids env S ub >>= _) = (Perc.getBondGids env S ub >>= _).map _
    cases Perc.getBondGids env S ub with
    | error e => rfl
    | ok gids =>
      show (pyGet gids 0 >>= _) = (pyGet gids 0 >>= _).map _
      cases pyGet gids 0 with
      | error e => rfl
      | ok root0 =>
        show (Perc.chooseRoot S.pool (S.afterWrapping && decide (S.wrappingId ∈ gids)) S.wrappingId gids root0 0 >>= _) =
          (Perc.chooseRoot S.pool (S.afterWrapping && decide (S.wrappingId ∈ gids)) S.wrappingId gids root0 0 >>= _).map _
        cases Perc.chooseRoot S.pool (S.afterWrapping && decide (S.wrappingId ∈ gids)) S.wrappingId gids root0 0 with
        | error e => rfl
        | ok root =>
          show (Perc.assignLoop k root ub (S.put T) >>= _) = (Perc.assignLoop k root ub S >>= _).map _
          rw [assignLoop_put]
          cases Perc.assignLoop k root ub S with
          | error e => rfl
          | ok S1 =>
            show (Perc.mergeLoop k root ub (S1.put T) >>= _) = (Perc.mergeLoop k root ub S1 >>= _).map _
            rw [mergeLoop_put]
            cases Perc.mergeLoop k root ub S1 with
            | error e => rfl
            | ok S2 =>
              show (Perc.clearLoop root gids S2.pool >>= _) = (Perc.clearLoop root gids S2.pool >>= _).map _
              cases Perc.clearLoop root gids S2.pool <;> rfl

theorem placeSelected_put (S T : Perc α) (k : Nat) : (S.put T).placeSelected env k = (S.placeSelected env k).map (·.put T) := by
  simp only [Perc.placeSelected]
  show (S.lat.initRelativeIndex k >>= _) = (S.lat.initRelativeIndex k >>= _).map _
  cases S.lat.initRelativeIndex k with
  | error e => rfl
  | ok lat =>
    show (lat.getNeighborBonds k >>= _) = (lat.getNeighborBonds k >>= _).map _
    cases lat.getNeighborBonds k with
    | error e => rfl
    | ok bs =>
      show (Perc.entropySubtract env (Perc.put { S with lat := lat } T) k >>= _) = (Perc.entropySubtract env { S with lat := lat } k >>= _).map _
      rw [entropySubtract_put]
      cases Perc.entropySubtract env { S with lat := lat } k with
      | error e => rfl
      | ok S1 =>
        show (Perc.mergeClustersV2 env (S1.put T) k bs >>= _) = (Perc.mergeClustersV2 env S1 k bs >>= _).map _
        rw [mergeClustersV2_put]
        cases Perc.mergeClustersV2 env S1 k bs with
        | error e => rfl
        | ok r =>
          show (Perc.trackLargest (r.1.put T) r.2 >>= _) = (Perc.trackLargest r.1 r.2 >>= _).map _
          rw [trackLargest_put]
          cases Perc.trackLargest r.1 r.2 with
          | error e => rfl
          | ok S2 => exact entropyAdd_put S2 T r.2

/-- The fields copied after a call of `select_site`: a successful call sets `selected_id`. -/
def Perc.upd (T : Perc α) (r : Perc α × SelectionState) : Perc α :=
  { T with selected := if r.2 = .success then r.1.selected else T.selected }

theorem finishSelect_put (S T : Perc α) (k : Nat) :
    (S.put T).finishSelect k = (S.finishSelect k).map fun r => (r.1.put (T.upd r), r.2) := by
  simp only [Perc.finishSelect]
  show (S.lat.getSite k >>= _) = (S.lat.getSite k >>= _).map _
  cases S.lat.getSite k with
  | error e => rfl
  | ok st =>
    show (pyAssert _ >>= _) = (pyAssert _ >>= _).map _
    cases pyAssert (decide (st.gid = -1)) <;> rfl

theorem dropCandidate_put (S T : Perc α) (r : Nat) : (S.put T).dropCandidate r = (S.dropCandidate r).map (·.put T) := by
  simp only [Perc.dropCandidate]
  show (pyGet S.siteIds S.currentIdx >>= _) = (pyGet S.siteIds S.currentIdx >>= _).map _
  cases pyGet S.siteIds S.currentIdx with
  | error e => rfl
  | ok c =>
    show (pyModify S.siteIds r _ >>= _) = (pyModify S.siteIds r _ >>= _).map _
    cases pyModify S.siteIds r fun _ => c <;> rfl

theorem selectL0_put (S T : Perc α) : (S.put T).selectL0 = S.selectL0.map fun r => (r.1.put (T.upd r), r.2) := by
  simp only [Perc.selectL0]
  show (if S.currentIdx ≥ S.maxIter then _ else _) = Except.map _ (if S.currentIdx ≥ S.maxIter then _ else _)
  split
  · rfl
  · show (pyGet S.siteIds S.currentIdx >>= _) = (pyGet S.siteIds S.currentIdx >>= _).map _
    cases pyGet S.siteIds S.currentIdx with
    | error e => rfl
    | ok k =>
      show (S.lat.getSite k >>= _) = (S.lat.getSite k >>= _).map _
      cases S.lat.getSite k with
      | error e => rfl
      | ok st =>
        show (pyAssert _ >>= _) = (pyAssert _ >>= _).map _
        cases pyAssert (decide (st.gid = -1)) <;> rfl

theorem selectL1_put (S T : Perc α) (d : Draw) : (S.put T).selectL1 d = (S.selectL1 d).map fun r => (r.1.put (T.upd r), r.2) := by
  simp only [Perc.selectL1]
  show (if S.currentIdx ≥ S.lat.siteCount then _ else _) = Except.map _ (if S.currentIdx ≥ S.lat.siteCount then _ else _)
  split
  · rfl
  · show (randint S.currentIdx S.siteIds.length d.a >>= _) = (randint S.currentIdx S.siteIds.length d.a >>= _).map _
    cases randint S.currentIdx S.siteIds.length d.a with
    | error e => rfl
    | ok rnd =>
      show (pyGet S.siteIds rnd >>= _) = (pyGet S.siteIds rnd >>= _).map _
      cases pyGet S.siteIds rnd with
      | error e => rfl
      | ok x =>
        show (S.lat.getSite x >>= _) = (S.lat.getSite x >>= _).map _
        cases S.lat.getSite x with
        | error e => rfl
        | ok xs =>
          show (if xs.isOccupied then _ else _) = Except.map _ (if xs.isOccupied then _ else _)
          split
          · show (S.lat.getAllNeighborSites x >>= _) = (S.lat.getAllNeighborSites x >>= _).map _
            cases S.lat.getAllNeighborSites x with
            | error e => rfl
            | ok sites =>
              show (randint 0 sites.length d.b >>= _) = (randint 0 sites.length d.b >>= _).map _
              cases randint 0 sites.length d.b with
              | error e => rfl
              | ok r2 =>
                show (pyGet sites r2 >>= _) = (pyGet sites r2 >>= _).map _
                cases pyGet sites r2 with
                | error e => rfl
                | ok y =>
                  show (S.lat.getSite y >>= _) = (S.lat.getSite y >>= _).map _
                  cases S.lat.getSite y with
                  | error e => rfl
                  | ok ys =>
                    show (if ys.isOccupied then _ else _) = Except.map _ (if ys.isOccupied then _ else _)
                    split
                    · show (xs.reduceNn1 >>= _) = (xs.reduceNn1 >>= _).map _
                      cases xs.reduceNn1 with
                      | error e => rfl
                      | ok xs =>
                        show (pyModify S.lat.sites x _ >>= _) = (pyModify S.lat.sites x _ >>= _).map _
                        cases pyModify S.lat.sites x fun _ => xs with
                        | error e => rfl
                        | ok sts =>
                          show (if xs.isRemovable 1 then _ else _) = Except.map _ (if xs.isRemovable 1 then _ else _)
                          split
                          · show (Perc.dropCandidate (Perc.put { S with xOccupied := S.xOccupied + 1, lat := { S.lat with sites := sts } } T) rnd >>= _) =
                              (Perc.dropCandidate { S with xOccupied := S.xOccupied + 1, lat := { S.lat with sites := sts } } rnd >>= _).map _
                            rw [dropCandidate_put]
                            cases Perc.dropCandidate { S with xOccupied := S.xOccupied + 1, lat := { S.lat with sites := sts } } rnd <;> rfl
                          · rfl
                    · exact finishSelect_put { S with xOccupied := S.xOccupied + 1, seqRecord := S.seqRecord ++ [y] } T y
          · exact finishSelect_put { S with seqRecord := S.seqRecord ++ [x] } T x

theorem selectL2_put (S T : Perc α) (d : Draw) : (S.put T).selectL2 d = (S.selectL2 d).map fun r => (r.1.put (T.upd r), r.2) := by
  simp only [Perc.selectL2]
  show (if S.currentIdx ≥ S.lat.siteCount then _ else _) = Except.map _ (if S.currentIdx ≥ S.lat.siteCount then _ else _)
  split
  · rfl
  · show (randint S.currentIdx S.siteIds.length d.a >>= _) = (randint S.currentIdx S.siteIds.length d.a >>= _).map _
    cases randint S.currentIdx S.siteIds.length d.a with
    | error e => rfl
    | ok rnd =>
      show (pyGet S.siteIds rnd >>= _) = (pyGet S.siteIds rnd >>= _).map _
      cases pyGet S.siteIds rnd with
      | error e => rfl
      | ok x =>
        show (S.lat.getSite x >>= _) = (S.lat.getSite x >>= _).map _
        cases S.lat.getSite x with
        | error e => rfl
        | ok xs =>
          show (if xs.isOccupied then _ else _) = Except.map _ (if xs.isOccupied then _ else _)
          split
          · show (S.lat.getAllNeighborSites x >>= _) = (S.lat.getAllNeighborSites x >>= _).map _
            cases S.lat.getAllNeighborSites x with
            | error e => rfl
            | ok sites =>
              show (randint 0 sites.length d.b >>= _) = (randint 0 sites.length d.b >>= _).map _
              cases randint 0 sites.length d.b with
              | error e => rfl
              | ok r2 =>
                show (pyGet sites r2 >>= _) = (pyGet sites r2 >>= _).map _
                cases pyGet sites r2 with
                | error e => rfl
                | ok y =>
                  show (S.lat.getSite y >>= _) = (S.lat.getSite y >>= _).map _
                  cases S.lat.getSite y with
                  | error e => rfl
                  | ok ys =>
                    show (if ys.isOccupied then _ else _) = Except.map _ (if ys.isOccupied then _ else _)
                    split
                    · show (xs.reduceNn1 >>= _) = (xs.reduceNn1 >>= _).map _
                      cases xs.reduceNn1 with
                      | error e => rfl
                      | ok xs =>
                        show (pyModify S.lat.sites x _ >>= _) = (pyModify S.lat.sites x _ >>= _).map _
                        cases pyModify S.lat.sites x fun _ => xs with
                        | error e => rfl
                        | ok sts =>
                          show (Perc.siteBeyond { S.lat with sites := sts } x y >>= _) = (Perc.siteBeyond { S.lat with sites := sts } x y >>= _).map _
                          cases Perc.siteBeyond { S.lat with sites := sts } x y with
                          | error e => rfl
                          | ok z =>
                            show (Lattice.getSite { S.lat with sites := sts } z >>= _) = (Lattice.getSite { S.lat with sites := sts } z >>= _).map _
                            cases Lattice.getSite { S.lat with sites := sts } z with
                            | error e => rfl
                            | ok zs =>
                              show (if zs.isOccupied then _ else _) = Except.map _ (if zs.isOccupied then _ else _)
                              split
                              · show (xs.reduceNn2 >>= _) = (xs.reduceNn2 >>= _).map _
                                cases xs.reduceNn2 with
                                | error e => rfl
                                | ok xs =>
                                  show (pyModify sts x _ >>= _) = (pyModify sts x _ >>= _).map _
                                  cases pyModify sts x fun _ => xs with
                                  | error e => rfl
                                  | ok sts2 =>
                                    show (if xs.isRemovable 2 then _ else _) = Except.map _ (if xs.isRemovable 2 then _ else _)
                                    split
                                    · show (Perc.dropCandidate (Perc.put { S with xOccupied := S.xOccupied + 1, yOccupied := S.yOccupied + 1, lat := { S.lat with sites := sts2 } } T) rnd >>= _) =
                                        (Perc.dropCandidate { S with xOccupied := S.xOccupied + 1, yOccupied := S.yOccupied + 1, lat := { S.lat with sites := sts2 } } rnd >>= _).map _
                                      rw [dropCandidate_put]
                                      cases Perc.dropCandidate { S with xOccupied := S.xOccupied + 1, yOccupied := S.yOccupied + 1, lat := { S.lat with sites := sts2 } } rnd <;> rfl
                                    · rfl
                              · exact finishSelect_put { S with xOccupied := S.xOccupied + 1, lat := { S.lat with sites := sts } } T z
                    · exact finishSelect_put { S with xOccupied := S.xOccupied + 1 } T y
          · exact finishSelect_put S T x

theorem selectSite_put (S T : Perc α) (d : Draw) :
    (S.put T).selectSite v d = (S.selectSite v d).map fun r => (r.1.put (T.upd r), r.2) := by
  cases v with
  | l0 => exact selectL0_put S T
  | sp => exact selectL0_put S T
  | l1 => exact selectL1_put S T d
  | l2 => exact selectL2_put S T d

theorem Perc.put_self (S : Perc α) : S.put S = S := rfl

theorem placeSelected_keep {S S' : Perc α} {k : Nat} (h : S.placeSelected env k = .ok S') : S' = S'.put S := by
  have := placeSelected_put (env := env) S S k
  rw [S.put_self, h] at this
  exact Except.ok.inj this

/-- The fields copied after a call of `place_one_site`. -/
def Perc.upd2 (T R : Perc α) : Perc α :=
  { T with selected := if R.selectionFlag = some .success then R.selected else T.selected, selectionFlag := R.selectionFlag }

/-- The part of `place_one_site` after a successful selection. -/
theorem afterSelect_put (U T : Perc α) (hf : U.selectionFlag = some .success) :
    (match (U.put (T.upd2 U)).selected with
      | none => (Except.error .typeError : Py (Perc α × Bool))
      | some k => (U.put (T.upd2 U)).placeSelected env k >>= fun S => Except.ok (S, true)) =
    Except.map (fun r : Perc α × Bool => (r.1.put (T.upd2 r.1), r.2)) (match U.selected with
      | none => (Except.error .typeError : Py (Perc α × Bool))
      | some k => U.placeSelected env k >>= fun S => Except.ok (S, true)) := by
  have hs : (U.put (T.upd2 U)).selected = U.selected := by
    show (if U.selectionFlag = some .success then U.selected else T.selected) = _
    rw [if_pos hf]
  rw [hs]
  cases U.selected with
  | none => rfl
  | some k =>
    simp only
    rw [placeSelected_put]
    cases hp : U.placeSelected env k with
    | error e => rfl
    | ok S2 =>
      have h := placeSelected_keep hp
      have h1 : S2.selected = U.selected := by rw [h]; rfl
      have h2 : S2.selectionFlag = U.selectionFlag := by rw [h]; rfl
      show Except.ok (S2.put (T.upd2 U), true) = Except.ok (S2.put (T.upd2 S2), true)
      simp only [Perc.upd2, h1, h2]

/-- `place_one_site` does not read the fields in question. -/
theorem placeOneSite_put (S T : Perc α) (d : Draw) :
    (S.put T).placeOneSite env v d = (S.placeOneSite env v d).map fun r => (r.1.put (T.upd2 r.1), r.2) := by
  simp only [Perc.placeOneSite, selectSite_put]
  cases S.selectSite v d with
  | error e => rfl
  | ok r =>
    obtain ⟨S1, flag⟩ := r
    cases flag with
    | currentSiteNotEmpty => rfl
    | emptySiteList => rfl
    | success =>
      exact afterSelect_put { S1 with selectionFlag := some .success } T rfl

/-- `detect_wrapping` reads `selected_id` only. -/
theorem detectWrapping_put (S T : Perc α) (h : T.selected = S.selected) :
    (S.put T).detectWrapping = S.detectWrapping.map fun r => (r.1.put T, r.2) := by
  simp only [Perc.detectWrapping]
  show (if S.afterWrapping then _ else _) = Except.map _ (if S.afterWrapping then _ else _)
  split
  · rfl
  · show (match T.selected with | none => _ | some k => _) = _
    rw [h]
    cases S.selected with
    | none => rfl
    | some k =>
      show (S.lat.getSitesForWrappingTest k >>= _) = (S.lat.getSitesForWrappingTest k >>= _).map _
      cases S.lat.getSitesForWrappingTest k with
      | error e => rfl
      | ok nbrs =>
        show (S.lat.getSite k >>= _) = (S.lat.getSite k >>= _).map _
        cases S.lat.getSite k with
        | error e => rfl
        | ok c =>
          show (Perc.wrapScan S.lat c.rel nbrs >>= _) = (Perc.wrapScan S.lat c.rel nbrs >>= _).map _
          cases Perc.wrapScan S.lat c.rel nbrs with
          | error e => rfl
          | ok hit =>
            cases hit with
            | false => rfl
            | true =>
              show (S.pool.bondCount c.gid >>= _) = (S.pool.bondCount c.gid >>= _).map _
              cases S.pool.bondCount c.gid with
              | error e => rfl
              | ok bc =>
                show (S.pool.siteCount c.gid >>= _) = (S.pool.siteCount c.gid >>= _).map _
                cases S.pool.siteCount c.gid <;> rfl

/-- `S` and `S'` differ at most in the reverse index, the list of occupation probabilities, `first_run` and the mode flags. -/
structure Agree (S S' : Perc α) : Prop where
  put : S' = S.put S'
  selected : S'.selected = S.selected
  flag : S'.selectionFlag = S.selectionFlag

/-- Both calls raise the same exception, or both return, with related results. -/
def PyRel {β : Type} (R : β → β → Prop) : Py β → Py β → Prop
  | .ok a, .ok b => R a b
  | .error e, .error e' => e = e'
  | _, _ => False

theorem placeOneSite_keep {S S' : Perc α} {d : Draw} {b : Bool} (h : S.placeOneSite env v d = .ok (S', b)) : S' = S'.put (S.upd2 S') := by
  have := placeOneSite_put (env := env) (v := v) S S d
  rw [S.put_self, h] at this
  exact (Prod.mk.inj (Except.ok.inj this)).1

/-- `place_one_site` on states that differ in irrelevant fields and possibly in the stale `selected_id`. -/
theorem place_put {S S' : Perc α} (h : S' = S.put S') (d : Draw) :
    PyRel (fun r r' : Perc α × Bool => r'.2 = r.2 ∧ r'.1 = r.1.put r'.1 ∧ r'.1.selectionFlag = r.1.selectionFlag ∧
      (r.1.selectionFlag = some .success ∨ S'.selected = S.selected → r'.1.selected = r.1.selected))
      (S.placeOneSite env v d) (S'.placeOneSite env v d) := by
  have e := placeOneSite_put (env := env) (v := v) S S' d
  rw [← h] at e
  rw [e]
  cases hp : S.placeOneSite env v d with
  | error x => rfl
  | ok r =>
    obtain ⟨R, b⟩ := r
    refine ⟨rfl, rfl, rfl, ?_⟩
    have hk : R.selected = if R.selectionFlag = some .success then R.selected else S.selected :=
      congrArg Perc.selected (placeOneSite_keep hp)
    show _ → (if R.selectionFlag = some .success then R.selected else S'.selected) = R.selected
    intro h1
    by_cases hf : R.selectionFlag = some .success
    · rw [if_pos hf]
    · rw [if_neg hf] at hk ⊢
      rw [hk]; exact h1.resolve_left hf

theorem place_agree {S S' : Perc α} (h : Agree S S') (d : Draw) :
    PyRel (fun r r' : Perc α × Bool => r'.2 = r.2 ∧ Agree r.1 r'.1) (S.placeOneSite env v d) (S'.placeOneSite env v d) := by
  have e := place_put (env := env) (v := v) h.put d
  revert e
  cases S.placeOneSite env v d with
  | error x => cases S'.placeOneSite env v d <;> exact id
  | ok r =>
    cases S'.placeOneSite env v d with
    | error x => exact id
    | ok r' => rintro ⟨h1, h2, h3, h4⟩; exact ⟨h1, h2, h4 (Or.inr h.selected), h3⟩

theorem detect_agree {S S' : Perc α} (h : Agree S S') :
    PyRel (fun r r' : Perc α × Bool => r'.2 = r.2 ∧ Agree r.1 r'.1) S.detectWrapping S'.detectWrapping := by
  have e := detectWrapping_put S S' h.selected
  have e0 := detectWrapping_put S S rfl
  rw [S.put_self] at e0
  rw [← h.put] at e
  rw [e]
  cases hp : S.detectWrapping with
  | error x => rfl
  | ok r =>
    rw [hp] at e0
    have hk : r.1 = r.1.put S := congrArg Prod.fst (Except.ok.inj e0)
    refine ⟨rfl, rfl, ?_, ?_⟩
    · rw [hk]; exact h.selected
    · rw [hk]; exact h.flag

theorem record_agree {S S' : Perc α} (h : Agree S S') : PyRel Agree (S.record env) (S'.record env) := by
  obtain ⟨h1, h2, h3⟩ := h
  obtain ⟨T, rfl⟩ : ∃ T, S' = S.put T := ⟨S', h1⟩
  have e : (S.put T).orderWrapping env = S.orderWrapping env := rfl
  simp only [Perc.record, e]
  cases S.orderWrapping env with
  | error x => rfl
  | ok p => exact ⟨rfl, h2, h3⟩

/-- Case split on a related pair of calls. -/
theorem PyRel.bind {β γ : Type} {R : β → β → Prop} {Q : γ → γ → Prop} {x y : Py β} {f g : β → Py γ} (h : PyRel R x y)
    (hf : ∀ a b, R a b → PyRel Q (f a) (g b)) : PyRel Q (x >>= f) (y >>= g) := by
  cases x with
  | error e => cases y with
    | error e' => exact h
    | ok b => exact False.elim h
  | ok a => cases y with
    | error e' => exact False.elim h
    | ok b => exact hf a b h

/-- The loop of `run_once`; at the start the stale `selected_id` may differ. -/
theorem runLoop_agree (fuel : Nat) : ∀ {ds : Nat → Draw} {S S' : Perc α}, S' = S.put S' →
    PyRel (fun R R' => R' = R.put R' ∧ R'.selectionFlag = R.selectionFlag ∧ (S'.selected = S.selected → R'.selected = R.selected))
      (Perc.runLoop env v fuel ds S) (Perc.runLoop env v fuel ds S') := by
  induction fuel with
  | zero => intro ds S S' _; rfl
  | succ fuel ih =>
    intro ds S S' h
    simp only [Perc.runLoop]
    refine (place_put h (ds 0)).bind ?_
    rintro ⟨R, b⟩ ⟨R', b'⟩ ⟨h1, h2, h3, h4⟩
    simp only at h1 h2 h3 h4 ⊢
    subst h1
    split
    · rw [h3]
      split
      · next hf =>
        refine (detect_agree ⟨h2, h4 (Or.inl hf), h3⟩).bind ?_
        rintro ⟨R1, w⟩ ⟨R1', w'⟩ ⟨_, h5⟩
        refine (record_agree h5).bind ?_
        intro R2 R2' h6
        have := ih (ds := fun i => ds (i + 1)) h6.put
        revert this
        cases Perc.runLoop env v fuel (fun i => ds (i + 1)) R2 with
        | error x => cases Perc.runLoop env v fuel (fun i => ds (i + 1)) R2' <;> exact id
        | ok a => cases Perc.runLoop env v fuel (fun i => ds (i + 1)) R2' with
          | error x => exact id
          | ok b => rintro ⟨g1, g2, g3⟩; exact ⟨g1, g2, fun _ => g3 h6.selected⟩
      · have := ih (ds := fun i => ds (i + 1)) h2
        revert this
        cases Perc.runLoop env v fuel (fun i => ds (i + 1)) R with
        | error x => cases Perc.runLoop env v fuel (fun i => ds (i + 1)) R' <;> exact id
        | ok a => cases Perc.runLoop env v fuel (fun i => ds (i + 1)) R' with
          | error x => exact id
          | ok b => rintro ⟨g1, g2, g3⟩; exact ⟨g1, g2, fun hs => g3 (h4 (Or.inr hs))⟩
    · exact ⟨h2, h3, fun hs => h4 (Or.inr hs)⟩

/-- The loop of `test_run_once`. -/
theorem testRunLoop_agree (fuel : Nat) : ∀ {ds : Nat → Draw} {S S' : Perc α}, S' = S.put S' →
    PyRel (fun R R' => R' = R.put R' ∧ R'.selectionFlag = R.selectionFlag ∧ (S'.selected = S.selected → R'.selected = R.selected))
      (Perc.testRunLoop env v fuel ds S) (Perc.testRunLoop env v fuel ds S') := by
  induction fuel with
  | zero => intro ds S S' _; rfl
  | succ fuel ih =>
    intro ds S S' h
    simp only [Perc.testRunLoop]
    refine (place_put h (ds 0)).bind ?_
    rintro ⟨R, b⟩ ⟨R', b'⟩ ⟨h1, h2, h3, h4⟩
    simp only at h1 h2 h3 h4 ⊢
    subst h1
    split
    · rw [h3]
      split
      · next hf =>
        refine (detect_agree ⟨h2, h4 (Or.inl hf), h3⟩).bind ?_
        rintro ⟨R1, w⟩ ⟨R1', w'⟩ ⟨h5', h5⟩
        simp only at h5' h5 ⊢
        subst h5'
        split
        · have e1 : R1'.pcOccupied = R1.pcOccupied := by rw [h5.put]; rfl
          have e2 : R1'.getSiteCountPc = R1.getSiteCountPc := by rw [h5.put]; rfl
          rw [e1, e2]
          cases pyAssert (decide (R1.pcOccupied > R1.getSiteCountPc)) with
          | error x => rfl
          | ok u => exact ⟨h5.put, h5.flag, fun _ => h5.selected⟩
        · refine (record_agree h5).bind ?_
          intro R2 R2' h6
          have := ih (ds := fun i => ds (i + 1)) h6.put
          revert this
          cases Perc.testRunLoop env v fuel (fun i => ds (i + 1)) R2 with
          | error x => cases Perc.testRunLoop env v fuel (fun i => ds (i + 1)) R2' <;> exact id
          | ok a => cases Perc.testRunLoop env v fuel (fun i => ds (i + 1)) R2' with
            | error x => exact id
            | ok b => rintro ⟨g1, g2, g3⟩; exact ⟨g1, g2, fun _ => g3 h6.selected⟩
      · have := ih (ds := fun i => ds (i + 1)) h2
        revert this
        cases Perc.testRunLoop env v fuel (fun i => ds (i + 1)) R with
        | error x => cases Perc.testRunLoop env v fuel (fun i => ds (i + 1)) R' <;> exact id
        | ok a => cases Perc.testRunLoop env v fuel (fun i => ds (i + 1)) R' with
          | error x => exact id
          | ok b => rintro ⟨g1, g2, g3⟩; exact ⟨g1, g2, fun hs => g3 (h4 (Or.inr hs))⟩
    · exact ⟨h2, h3, fun hs => h4 (Or.inr hs)⟩

theorem scanLines_put (S T : Perc α) (rr cc : Nat) (xs : List Nat) : ∀ fl : Bool × Bool, (S.put T).scanLines rr cc xs fl = S.scanLines rr cc xs fl := by
  induction xs with
  | nil => intro fl; rfl
  | cons x xs ih => intro fl; simp only [Perc.scanLines, ih]; rfl

/-- The loop of `ShortestPathAfter_pc.run_once`. -/
theorem spLoop_agree (fuel : Nat) : ∀ {S S' : Perc α}, S' = S.put S' →
    PyRel (fun r r' : Perc α × Bool => r'.2 = r.2 ∧ r'.1 = r.1.put r'.1 ∧ r'.1.selectionFlag = r.1.selectionFlag ∧
      (S'.selected = S.selected → r'.1.selected = r.1.selected))
      (Perc.spLoop env fuel S) (Perc.spLoop env fuel S') := by
  induction fuel with
  | zero => intro S S' _; rfl
  | succ fuel ih =>
    intro S S' h
    have weaken : ∀ {R R' : Perc α}, R' = R.put R' → (S'.selected = S.selected → R'.selected = R.selected) →
        PyRel (fun r r' : Perc α × Bool => r'.2 = r.2 ∧ r'.1 = r.1.put r'.1 ∧ r'.1.selectionFlag = r.1.selectionFlag ∧
          (S'.selected = S.selected → r'.1.selected = r.1.selected)) (Perc.spLoop env fuel R) (Perc.spLoop env fuel R') := by
      intro R R' h2 h4
      have := ih h2
      revert this
      cases Perc.spLoop env fuel R with
      | error x => cases Perc.spLoop env fuel R' <;> exact id
      | ok a => cases Perc.spLoop env fuel R' with
        | error x => exact id
        | ok b => rintro ⟨g0, g1, g2, g3⟩; exact ⟨g0, g1, g2, fun hs => g3 (h4 hs)⟩
    simp only [Perc.spLoop]
    refine (place_put h ⟨0, 0⟩).bind ?_
    rintro ⟨R, b⟩ ⟨R', b'⟩ ⟨h1, h2, h3, h4⟩
    simp only at h1 h2 h3 h4 ⊢
    subst h1
    split
    · rw [h3]
      split
      · next hf =>
        refine (detect_agree ⟨h2, h4 (Or.inl hf), h3⟩).bind ?_
        rintro ⟨R1, w⟩ ⟨R1', w'⟩ ⟨h5', h5⟩
        simp only at h5' h5 ⊢
        subst h5'
        split
        · rw [h5.selected]
          cases hs : R1.selected with
          | none => rfl
          | some k =>
            have e1 : R1'.lat = R1.lat := by rw [h5.put]; rfl
            have e2 : ∀ rr cc, R1'.scanRowCol rr cc = R1.scanRowCol rr cc := by
              intro rr cc
              rw [h5.put]; exact scanLines_put R1 R1' rr cc _ _
            simp only [e1, e2]
            cases R1.lat.getSite k with
            | error x => rfl
            | ok st =>
              show PyRel _ (R1.scanRowCol st.index.c1.toNat st.index.c2.toNat >>= _) (R1.scanRowCol st.index.c1.toNat st.index.c2.toNat >>= _)
              cases R1.scanRowCol st.index.c1.toNat st.index.c2.toNat with
              | error x => rfl
              | ok fl =>
                show PyRel _ (if (fl.1 || fl.2) = true then _ else _) (if (fl.1 || fl.2) = true then _ else _)
                split
                · refine ⟨rfl, ?_, h5.flag, fun _ => rfl⟩
                  obtain ⟨T, rfl⟩ : ∃ T, R1' = R1.put T := ⟨R1', h5.put⟩
                  rfl
                · exact weaken h5.put (fun _ => h5.selected)
        · exact weaken h5.put (fun _ => h5.selected)
      · exact weaken h2 (fun hs => h4 (Or.inr hs))
    · exact ⟨rfl, h2, h3, fun hs => h4 (Or.inr hs)⟩

/-! ### Invariants of all histories -/

/-- Induction over histories: it is enough to look at the elementary calls. -/
theorem Reach.induct (Q : Perc α → Prop) (hnew : ∀ {draws : Nat → Nat} {S : Perc α}, Perc.new env L draws = .ok S → Q S)
    (hplace : ∀ {S S' : Perc α} {A : Abs α} {d : Draw} {b : Bool}, Sim env L S A → AReach env L A → Q S → S.placeOneSite env v d = .ok (S', b) → Q S')
    (hdetect : ∀ {S S' : Perc α} {A : Abs α} {w : Bool}, Sim env L S A → AReach env L A → Q S → S.detectWrapping = .ok (S', w) → Q S')
    (hreset : ∀ {S S' : Perc α} {A : Abs α} {draws : Nat → Nat}, Sim env L S A → AReach env L A → Q S → S.reset env v draws = .ok S' → Q S')
    (hdata : ∀ {S : Perc α} (fr : Bool) (l1 l2 l3 l4 : List α), Q S →
      Q { S with firstRun := fr, occProbList := l1, entropyList := l2, orderWrapList := l3, orderLargestList := l4 })
    (hsp : v = .sp → ∀ {S : Perc α} (p : α), Q S → Q { S with shortestP := p })
    (hids : ∀ {S : Perc α} (ids rev : List Nat) (mc ds : Bool) (mi : Nat), IdsKept L S ids rev mc ds mi → Q S →
      Q { S with siteIds := ids, revIds := rev, modeCustom := mc, doShuffle := ds, maxIter := mi })
    (hraise : v.plain = true → ∀ {S : Perc α} {A : Abs α} {k : Nat}, Sim env L S A → AReach env L A → S.siteIds[S.currentIdx]? = some k → k < L * L →
      0 ≤ A.V.sg k → Q S → Q { S with selected := some k })
    {S : Perc α} (h : Reach env v L S) : Q S := by
  have hp : ∀ {S S' : Perc α} {d : Draw} {b : Bool}, (Q S ∧ ∃ A, Sim env L S A ∧ AReach env L A) → S.placeOneSite env v d = .ok (S', b) →
      Q S' ∧ ∃ A, Sim env L S' A ∧ AReach env L A := by
    rintro S S' d b ⟨q, A, M, hA⟩ h
    obtain ⟨A', h1, h2⟩ := placeOneSite_steps M hA.inv h
    exact ⟨hplace M hA q h, A', h2, hA.steps h1⟩
  have hd : ∀ {S S' : Perc α} {w : Bool}, (Q S ∧ ∃ A, Sim env L S A ∧ AReach env L A) → S.detectWrapping = .ok (S', w) →
      Q S' ∧ ∃ A, Sim env L S' A ∧ AReach env L A := by
    rintro S S' w ⟨q, A, M, hA⟩ h
    obtain ⟨_, _, _, A', h1, h2, _⟩ := detectWrapping_steps M hA.inv h
    exact ⟨hdetect M hA q h, A', h2, hA.steps h1⟩
  have hr : ∀ {S S' : Perc α}, (Q S ∧ ∃ A, Sim env L S A ∧ AReach env L A) → S.record env = .ok S' → Q S' ∧ ∃ A, Sim env L S' A ∧ AReach env L A := by
    rintro S S' ⟨q, A, M, hA⟩ h
    refine ⟨?_, A, record_sim M h, hA⟩
    obtain ⟨p, _, rfl⟩ := record_ok h
    exact hdata _ _ _ _ _ q
  induction h with
  | new h => exact hnew h
  | @step S S' op hR h ih =>
    obtain ⟨_, hS⟩ := hR.sim
    cases op with
    | place d =>
      simp only [SqPerc.step] at h
      cases h1 : S.placeOneSite env v d with
      | error e => rw [h1] at h; cases h
      | ok r => rw [h1] at h; rw [← Except.ok.inj h]; exact (hp (b := r.2) ⟨ih, hS⟩ h1).1
    | detect =>
      simp only [SqPerc.step] at h
      cases h1 : S.detectWrapping with
      | error e => rw [h1] at h; cases h
      | ok r => rw [h1] at h; rw [← Except.ok.inj h]; exact (hd (w := r.2) ⟨ih, hS⟩ h1).1
    | reset draws => obtain ⟨A, M, hA⟩ := hS; exact hreset M hA ih h
    | runOnce fuel ds =>
      simp only [SqPerc.step, Perc.runOnceV] at h
      have gen : ∀ {S'}, S.runOnce env v fuel ds = .ok S' → Q S' := by
        intro S' h
        simp only [Perc.runOnce] at h
        cases h1 : Perc.runLoop env v fuel ds S with
        | error e => rw [h1] at h; cases h
        | ok S1 =>
          rw [h1] at h
          rw [← Except.ok.inj h]
          exact hdata false S1.occProbList S1.entropyList S1.orderWrapList S1.orderLargestList
            (runLoop_ind (fun S => Q S ∧ ∃ A, Sim env L S A ∧ AReach env L A) hp hd hr fuel ⟨ih, hS⟩ h1).1
      cases v with
      | sp =>
        simp only [Perc.spRunOnce] at h
        cases h1 : Perc.spLoop env fuel S with
        | error e => rw [h1] at h; cases h
        | ok r =>
          rw [h1] at h
          rw [← Except.ok.inj h]
          have := spLoop_ind (fun S => Q S ∧ ∃ A, Sim env L S A ∧ AReach env L A) hp hd
            (fun q => ⟨hsp rfl _ q.1, by obtain ⟨_, A, M, hA⟩ := q; exact ⟨A, M.aux rfl rfl rfl rfl rfl rfl rfl rfl rfl rfl rfl rfl rfl rfl, hA⟩⟩)
            fuel ⟨ih, hS⟩ (S' := r.1) (b := r.2) h1
          exact hdata false r.1.occProbList r.1.entropyList r.1.orderWrapList r.1.orderLargestList this.1
      | l0 => exact gen h
      | l1 => exact gen h
      | l2 => exact gen h
    | testRunOnce fuel ds =>
      simp only [SqPerc.step, Perc.testRunOnce] at h
      cases h1 : Perc.testRunLoop env v fuel ds S with
      | error e => rw [h1] at h; cases h
      | ok S1 =>
        rw [h1] at h
        rw [← Except.ok.inj h]
        exact hdata false S1.occProbList S1.entropyList S1.orderWrapList S1.orderLargestList
          (testRunLoop_ind (fun S => Q S ∧ ∃ A, Sim env L S A ∧ AReach env L A) hp hd hr fuel ⟨ih, hS⟩ h1).1
    | shuffle draws =>
      obtain ⟨ids, rev, rfl, hp, hr, hI⟩ := shuffle_perm (L := L) h
      exact hids ids rev S.modeCustom S.doShuffle S.maxIter
        ⟨hr, fun h => by rw [hp.length_eq, h], fun hl _ k hk => hl k (hp.mem_iff.1 hk), fun hm => ⟨hm, rfl, rfl, fun h1 h2 h3 => ⟨hp, hI h1 h2 h3⟩⟩⟩ ih
    | setIds ids b draws =>
      simp only [SqPerc.step, Perc.setCustomIds] at h
      split at h
      · cases h
      · split at h
        · rw [← Except.ok.inj h]; exact ih
        · next hne hbad =>
          obtain ⟨ids', rev', rfl, hp, hr, _⟩ := shuffle_perm (L := L) h
          obtain ⟨A, M, hA⟩ := hS
          refine hids (S := S) ids' rev' true b _ ⟨hr, fun _ => by rw [hp.length_eq, List.length_map], fun hl _ k hk => ?_, fun h => (by cases h)⟩ ih
          rw [show S.lat.length = L by rw [M.lat]; rfl, Bool.not_eq_true, badIds_iff (by simpa using hne)] at hbad
          obtain ⟨i, hi, rfl⟩ := List.mem_map.1 (hp.mem_iff.1 hk)
          have := hbad i hi
          omega
    | setIndices ids b draws =>
      simp only [SqPerc.step, Perc.setCustomIndices] at h
      split at h
      · cases h
      · split at h
        · rw [← Except.ok.inj h]; exact ih
        · next hne hbad =>
          obtain ⟨ids', rev', rfl, hp, hr, _⟩ := shuffle_perm (L := L) h
          obtain ⟨A, M, hA⟩ := hS
          refine hids (S := S) ids' rev' true b _ ⟨hr, fun _ => by rw [hp.length_eq, List.length_map], fun hl _ k hk => ?_, fun h => (by cases h)⟩ ih
          rw [show S.lat.length = L by rw [M.lat]; rfl, Bool.not_eq_true, badIds_iff (by simpa using hne)] at hbad
          obtain ⟨i, hi, rfl⟩ := List.mem_map.1 (hp.mem_iff.1 hk)
          have := hbad i hi
          omega
    | swapIds i j =>
      obtain ⟨ids, rev, rfl, hk⟩ := swapIds_kept h
      exact hids ids rev S.modeCustom S.doShuffle S.maxIter hk ih
  | @write S l _ hm hl hx ih =>
    exact hids l S.revIds S.modeCustom S.doShuffle S.maxIter ⟨rfl, fun h => hl.trans h, fun _ _ => hx, fun h => absurd (hm.symm.trans h) (by decide)⟩ ih
  | @caught S e op hR h _ ih =>
    refine (stepRaised_ind (fun S => Q S ∧ ∃ A, Sim env L S A ∧ AReach env L A) hp ?_ hd hr ?_ ⟨ih, hR.sim.2⟩ h).1
    · rintro S d e ⟨q, A, M, hA⟩ he
      obtain ⟨A', h1, h2⟩ := placeRaised_steps M hA.inv he
      refine ⟨?_, A', h2, hA.steps h1⟩
      rcases placeRaised_cases M hA.inv he with h | ⟨k, hv, _, hk, hkl, h0, h⟩
      · rw [h]; exact q
      · rw [h]; exact hraise hv M hA hk hkl h0 q
    · rintro S i j e _ ⟨q, A, M, hA⟩ he
      obtain ⟨ids, hi, hk⟩ := swapRaised_kept (L := L) he
      rw [hi]
      exact ⟨hids ids S.revIds S.modeCustom S.doShuffle S.maxIter hk q, A, M.aux rfl rfl rfl rfl rfl rfl rfl rfl rfl rfl rfl rfl rfl rfl, hA⟩

/-- The attributes of the other classes keep their initial values. -/
structure Unused (env : Env α) (v : Variant) (S : Perc α) : Prop where
  x : v.plain = true → S.xOccupied = 0
  y : v ≠ .l2 → S.yOccupied = 0
  seq : v ≠ .l1 → S.seqRecord = []
  sp : v ≠ .sp → S.shortestP = env.ar.ofNat 0

theorem finishSelect_fields {S S1 : Perc α} {k : Nat} {f : SelectionState} (h : S.finishSelect k = .ok (S1, f)) :
    S1.xOccupied = S.xOccupied ∧ S1.yOccupied = S.yOccupied ∧ S1.seqRecord = S.seqRecord ∧ S1.shortestP = S.shortestP ∧
    S1.selected = some k ∧ f = .success ∧ S1.siteIds = S.siteIds ∧ S1.currentIdx = S.currentIdx := by
  simp only [Perc.finishSelect] at h
  cases h1 : S.lat.getSite k with
  | error e => rw [h1] at h; cases h
  | ok st =>
    rw [h1] at h
    replace h : (pyAssert (decide (st.gid = -1)) >>= _) = _ := h
    cases h2 : pyAssert (decide (st.gid = -1)) with
    | error e => rw [h2] at h; cases h
    | ok u =>
      rw [h2] at h
      obtain ⟨h3, h4⟩ := Prod.mk.inj (Except.ok.inj h)
      rw [← h3, ← h4]
      exact ⟨rfl, rfl, rfl, rfl, rfl, rfl, rfl, rfl⟩

theorem selectL0_fields {S S1 : Perc α} {f : SelectionState} (h : S.selectL0 = .ok (S1, f)) :
    S1.xOccupied = S.xOccupied ∧ S1.yOccupied = S.yOccupied ∧ S1.seqRecord = S.seqRecord ∧ S1.shortestP = S.shortestP := by
  simp only [Perc.selectL0] at h
  split at h
  · rw [← (Prod.mk.inj (Except.ok.inj h)).1]; exact ⟨rfl, rfl, rfl, rfl⟩
  · cases h1 : pyGet S.siteIds S.currentIdx with
    | error e => rw [h1] at h; cases h
    | ok k =>
      rw [h1] at h
      replace h : (S.lat.getSite k >>= _) = _ := h
      cases h2 : S.lat.getSite k with
      | error e => rw [h2] at h; cases h
      | ok st =>
        rw [h2] at h
        replace h : (pyAssert _ >>= _) = _ := h
        cases h3 : pyAssert (decide (st.gid = -1)) with
        | error e => rw [h3] at h; cases h
        | ok u =>
          rw [h3] at h
          rw [← (Prod.mk.inj (Except.ok.inj h)).1]; exact ⟨rfl, rfl, rfl, rfl⟩

theorem selectSite_unused {S S1 : Perc α} {A : Abs α} {d : Draw} {f : SelectionState} (M : Sim env L S A) (h : S.selectSite v d = .ok (S1, f)) :
    (v.plain = true → S1.xOccupied = S.xOccupied) ∧ (v ≠ .l2 → S1.yOccupied = S.yOccupied) ∧ (v ≠ .l1 → S1.seqRecord = S.seqRecord) ∧
    S1.shortestP = S.shortestP := by
  cases v with
  | l0 => obtain ⟨h1, h2, h3, h4⟩ := selectL0_fields h; exact ⟨fun _ => h1, fun _ => h2, fun _ => h3, h4⟩
  | sp => obtain ⟨h1, h2, h3, h4⟩ := selectL0_fields h; exact ⟨fun _ => h1, fun _ => h2, fun _ => h3, h4⟩
  | l1 =>
    simp only [Perc.selectSite] at h
    refine ⟨fun h => (by cases h), fun _ => ?_, fun h => absurd rfl h, ?_⟩ <;>
    · rcases selectL1_inv M.lat h with ⟨_, h1⟩ | ⟨h1, h2, x, hx, hxl⟩
      · rw [(Prod.mk.inj h1).1]
      · rw [selectL1_eq M.lat d h1 h2 rfl hx hxl] at h
        split at h
        · split at h
          · split at h
            · cases h
            · rw [← (Prod.mk.inj (Except.ok.inj h)).1]; rfl
          · first | exact (finishSelect_fields h).2.1 | exact (finishSelect_fields h).2.2.2.1
        · first | exact (finishSelect_fields h).2.1 | exact (finishSelect_fields h).2.2.2.1
  | l2 =>
    simp only [Perc.selectSite] at h
    refine ⟨fun h => (by cases h), fun h => absurd rfl h, fun _ => ?_, ?_⟩ <;>
    · rcases selectL2_inv M.lat h with ⟨_, h1⟩ | ⟨h1, h2, x, hx, hxl⟩
      · rw [(Prod.mk.inj h1).1]
      · rw [selectL2_eq M.lat d h1 h2 rfl hx hxl] at h
        split at h
        · split at h
          · split at h
            · cases h
            · split at h
              · split at h
                · cases h
                · rw [← (Prod.mk.inj (Except.ok.inj h)).1]; rfl
              · first | exact (finishSelect_fields h).2.2.1 | exact (finishSelect_fields h).2.2.2.1
          · first | exact (finishSelect_fields h).2.2.1 | exact (finishSelect_fields h).2.2.2.1
        · first | exact (finishSelect_fields h).2.2.1 | exact (finishSelect_fields h).2.2.2.1

theorem Reach.unused {S : Perc α} (h : Reach env v L S) : Unused env v S := by
  refine Reach.induct (Unused env v) ?_ ?_ ?_ ?_ ?_ ?_ ?_ ?_ h
  · intro draws S h
    obtain ⟨_, rev, rfl, _⟩ := new_inv h
    exact ⟨fun _ => rfl, fun _ => rfl, fun _ => rfl, fun _ => rfl⟩
  · intro S S' A d b M hA q h
    obtain ⟨S1, f, h1, _, _, K⟩ := placeOneSite_select M hA.inv h
    obtain ⟨g1, g2, g3, g4⟩ := selectSite_unused M h1
    exact ⟨fun hv => by rw [K.xOccupied, g1 hv, q.x hv], fun hv => by rw [K.yOccupied, g2 hv, q.y hv],
      fun hv => by rw [K.seqRecord, g3 hv, q.seq hv], fun hv => by rw [K.shortestP, g4, q.sp hv]⟩
  · intro S S' A w M hA q h
    obtain ⟨K, _⟩ := detectWrapping_keep M hA.inv h
    exact ⟨fun hv => by rw [K.xOccupied, q.x hv], fun hv => by rw [K.yOccupied, q.y hv],
      fun hv => by rw [K.seqRecord, q.seq hv], fun hv => by rw [K.shortestP, q.sp hv]⟩
  · intro S S' A draws M hA q h
    simp only [Perc.reset] at h
    cases hb : S.resetBase draws with
    | error e => rw [hb] at h; cases h
    | ok S1 =>
      rw [hb] at h
      obtain ⟨ids, rev, rfl⟩ := resetBase_ok M.lat hb
      cases v <;> (have h := (Except.ok.inj h).symm; subst h)
      · exact ⟨q.x, q.y, q.seq, q.sp⟩
      · exact ⟨fun h => (by cases h), q.y, fun h => absurd rfl h, q.sp⟩
      · exact ⟨fun h => (by cases h), fun h => absurd rfl h, q.seq, q.sp⟩
      · exact ⟨q.x, q.y, q.seq, fun h => absurd rfl h⟩
  · intro S fr l1 l2 l3 l4 q; exact ⟨q.x, q.y, q.seq, q.sp⟩
  · intro hv S p q; exact ⟨q.x, q.y, q.seq, fun h => absurd hv h⟩
  · intro S ids rev mc ds mi _ q; exact ⟨q.x, q.y, q.seq, q.sp⟩
  · intro _ S A k _ _ _ _ _ q; exact ⟨q.x, q.y, q.seq, q.sp⟩

/-- A state right after `reset` and a new object agree, except for the site order, its reverse index, the mode, the list of occupation
probabilities with `first_run`, and the stale `selected_id`. -/
theorem reset_new {S S' N : Perc α} {draws draws' : Nat → Nat} (h : Reach env v L S) (hr : S.reset env v draws = .ok S')
    (hn : Perc.new env L draws' = .ok N) :
    S' = { N.put S' with siteIds := S'.siteIds, maxIter := S'.maxIter } ∧ S'.selectionFlag = none ∧ N.selectionFlag = none ∧
    S'.selected = S.selected ∧ S'.firstRun = S.firstRun ∧ S'.occProbList = (if S.firstRun then [] else S.occProbList) := by
  obtain ⟨hL, A, M, hA⟩ := h.sim
  have U := h.unused
  obtain ⟨_, rev', rfl, _⟩ := new_inv hn
  simp only [Perc.reset] at hr
  cases hb : S.resetBase draws with
  | error e => rw [hb] at hr; cases hr
  | ok S1 =>
    rw [hb] at hr
    obtain ⟨ids, rev, rfl⟩ := resetBase_ok M.lat hb
    have hm := M.me
    have hc := M.cc
    cases v <;> (have hr := (Except.ok.inj hr).symm; subst hr)
    · refine ⟨?_, rfl, rfl, rfl, rfl, rfl⟩
      simp only [Perc.put, hm, hc, U.x rfl, U.y (by decide), U.seq (by decide), U.sp (by decide), freshPerc]
    · refine ⟨?_, rfl, rfl, rfl, rfl, rfl⟩
      simp only [Perc.put, hm, hc, U.y (by decide), U.sp (by decide), freshPerc]
    · refine ⟨?_, rfl, rfl, rfl, rfl, rfl⟩
      simp only [Perc.put, hm, hc, U.seq (by decide), U.sp (by decide), freshPerc]
    · refine ⟨?_, rfl, rfl, rfl, rfl, rfl⟩
      simp only [Perc.put, hm, hc, U.x rfl, U.y (by decide), U.seq (by decide), freshPerc]

end SqPerc
