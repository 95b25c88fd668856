import Verif.Proof.Frame
import Verif.Model.Loose
import Verif.Props.Cells
import Verif.Props.Lists
import Verif.Proof.Raise
/-
The fields of an object that interference with the list of site ids can reach, directly or through runs that end early.
-/
namespace SqPerc

variable {α : Type} {L : Nat} {env : Env α} {v : Variant}

/-- `S` with the fields taken from `T` that hold the site order, the modes and the results collected by runs. -/
def Perc.over (S T : Perc α) : Perc α :=
  { S with siteIds := T.siteIds, revIds := T.revIds, maxIter := T.maxIter, modeCustom := T.modeCustom, doShuffle := T.doShuffle,
           selectionFlag := T.selectionFlag, firstRun := T.firstRun, occProbList := T.occProbList, entropyList := T.entropyList,
           orderWrapList := T.orderWrapList, orderLargestList := T.orderLargestList, shortestP := T.shortestP }

theorem entropyGids_over (S T : Perc α) (bs : List Nat) : (S.over T).entropyGids bs = S.entropyGids bs := by
  induction bs with
  | nil => rfl
  | cons b bs ih => simp only [Perc.entropyGids, ih]; rfl

theorem entropyLoop_over (S T : Perc α) (gs : List Int) (h : α) : Perc.entropyLoop env (S.over T) gs h = Perc.entropyLoop env S gs h := by
  induction gs generalizing h with
  | nil => rfl
  | cons g gs ih => simp only [Perc.entropyLoop, ih]; rfl

theorem entropySubtract_over (S T : Perc α) (k : Nat) :
    (S.over T).entropySubtract env k = (S.entropySubtract env k).map (·.over T) := by
  simp only [Perc.entropySubtract, entropyGids_over, entropyLoop_over]
  show (S.lat.getNeighborBonds k >>= _) = (S.lat.getNeighborBonds k >>= _).map _
  cases S.lat.getNeighborBonds k with
  | error e => rfl
  | ok bs =>
    show (S.entropyGids bs >>= _) = (S.entropyGids bs >>= _).map _
    cases S.entropyGids bs with
    | error e => rfl
    | ok gs =>
      show (Perc.entropyLoop env S (env.set.iter gs) _ >>= _) = (Perc.entropyLoop env S (env.set.iter gs) _ >>= _).map _
      cases Perc.entropyLoop env S (env.set.iter gs) (env.ar.ofNat 0) <;> rfl

theorem entropyAdd_over (S T : Perc α) (c : Int) : (S.over T).entropyAdd env c = (S.entropyAdd env c).map (·.over T) := by
  simp only [Perc.entropyAdd]
  show (S.pool.bondCount c >>= _) = (S.pool.bondCount c >>= _).map _
  cases S.pool.bondCount c with
  | error e => rfl
  | ok n =>
    show (if n = 0 then _ else _) = Except.map _ (if n = 0 then _ else _)
    split <;> rfl

theorem trackLargest_over (S T : Perc α) (c : Int) : (S.over T).trackLargest c = (S.trackLargest c).map (·.over T) := by
  simp only [Perc.trackLargest]
  show (S.pool.bondCount c >>= _) = (S.pool.bondCount c >>= _).map _
  cases S.pool.bondCount c with
  | error e => rfl
  | ok n =>
    show Except.ok (if n > S.largestSz then _ else _) = Except.ok (Perc.over (if n > S.largestSz then _ else _) T)
    split <;> rfl

theorem assignLoop_over (T : Perc α) (k : Nat) (root : Int) (bs : List Nat) : ∀ S : Perc α,
    Perc.assignLoop k root bs (S.over T) = (Perc.assignLoop k root bs S).map (·.over T) := by
  induction bs with
  | nil => intro S; rfl
  | cons b bs ih =>
    intro S
    simp only [Perc.assignLoop]
    show (S.lat.getBondGid b >>= _) = (S.lat.getBondGid b >>= _).map _
    cases S.lat.getBondGid b with
    | error e => rfl
    | ok g =>
      show (if g = root then _ else _) = Except.map _ (if g = root then _ else _)
      split
      · show (S.lat.setSiteGid k root >>= _) = (S.lat.setSiteGid k root >>= _).map _
        cases S.lat.setSiteGid k root with
        | error e => rfl
        | ok lat =>
          show (S.pool.addSite root k >>= _) = (S.pool.addSite root k >>= _).map _
          cases S.pool.addSite root k with
          | error e => rfl
          | ok pool =>
            show (lat.otherEnd k b >>= _) = (lat.otherEnd k b >>= _).map _
            cases lat.otherEnd k b with
            | error e => rfl
            | ok n =>
              show (lat.getSiteGid n >>= _) = (lat.getSiteGid n >>= _).map _
              cases lat.getSiteGid n with
              | error e => rfl
              | ok ng =>
                show (if ng ≥ 0 then _ else _) = Except.map _ (if ng ≥ 0 then _ else _)
                split
                · show (getRelativeIndex lat n k >>= _) = (getRelativeIndex lat n k >>= _).map _
                  cases getRelativeIndex lat n k with
                  | error e => rfl
                  | ok r =>
                    show (lat.setRelativeIndex k r >>= _) = (lat.setRelativeIndex k r >>= _).map _
                    cases lat.setRelativeIndex k r with
                    | error e => rfl
                    | ok lat2 => exact ih { S with lat := lat2, pool := pool }
                · exact ih { S with lat := lat, pool := pool }
      · exact ih S

theorem relabel_over (S T : Perc α) (k b : Nat) : (S.over T).relabelRelativeIndices k b = (S.relabelRelativeIndices k b).map (·.over T) := by
  simp only [Perc.relabelRelativeIndices]
  show (S.lat.getBond b >>= _) = (S.lat.getBond b >>= _).map _
  cases S.lat.getBond b with
  | error e => rfl
  | ok bond =>
    show (S.lat.otherEnd k bond.id >>= _) = (S.lat.otherEnd k bond.id >>= _).map _
    cases S.lat.otherEnd k bond.id with
    | error e => rfl
    | ok n =>
      show (S.pool.getSites bond.gid >>= _) = (S.pool.getSites bond.gid >>= _).map _
      cases S.pool.getSites bond.gid with
      | error e => rfl
      | ok l =>
        show (if l.length = 0 then _ else _) = Except.map _ (if l.length = 0 then _ else _)
        split
        · rfl
        · show (S.lat.getSite n >>= _) = (S.lat.getSite n >>= _).map _
          cases S.lat.getSite n with
          | error e => rfl
          | ok ns =>
            show (getRelativeIndex S.lat k n >>= _) = (getRelativeIndex S.lat k n >>= _).map _
            cases getRelativeIndex S.lat k n with
            | error e => rfl
            | ok r =>
              show (S.lat.getSiteGid k >>= _) = (S.lat.getSiteGid k >>= _).map _
              cases S.lat.getSiteGid k with
              | error e => rfl
              | ok cg =>
                show (if cg ≥ 0 then _ else _) = Except.map _ (if cg ≥ 0 then _ else _)
                split
                · show (Perc.shiftSites (r.sub ns.rel) l S.lat >>= _) = (Perc.shiftSites (r.sub ns.rel) l S.lat >>= _).map _
                  cases Perc.shiftSites (r.sub ns.rel) l S.lat <;> rfl
                · rfl

theorem mergeLoop_over (T : Perc α) (k : Nat) (root : Int) (bs : List Nat) : ∀ S : Perc α,
    Perc.mergeLoop k root bs (S.over T) = (Perc.mergeLoop k root bs S).map (·.over T) := by
  induction bs with
  | nil => intro S; rfl
  | cons b bs ih =>
    intro S
    simp only [Perc.mergeLoop]
    show (S.lat.getBondGid b >>= _) = (S.lat.getBondGid b >>= _).map _
    cases S.lat.getBondGid b with
    | error e => rfl
    | ok g =>
      show (if g = root then _ else _) = Except.map _ (if g = root then _ else _)
      split
      · exact ih S
      · rw [relabel_over]
        cases S.relabelRelativeIndices k b with
        | error e => rfl
        | ok S1 =>
          show (S1.pool.mergeClusterWith root g S1.lat >>= _) = (S1.pool.mergeClusterWith root g S1.lat >>= _).map _
          cases S1.pool.mergeClusterWith root g S1.lat with
          | error e => rfl
          | ok pl => exact ih { S1 with pool := pl.1, lat := pl.2 }

theorem mergeClustersV2_over (S T : Perc α) (k : Nat) (bs : List Nat) :
    (S.over T).mergeClustersV2 env k bs = (S.mergeClustersV2 env k bs).map fun r => (r.1.over T, r.2) := by
  simp only [Perc.mergeClustersV2]
  show (Perc.uniqueBondLoop S.lat bs [] >>= _) = (Perc.uniqueBondLoop S.lat bs [] >>= _).map _
  cases Perc.uniqueBondLoop S.lat bs [] with
  | error e => rfl
  | ok ub =>
    show (Perc.getBondGids env S ub >>= _) = (Perc.getBondGids env S ub >>= _).map _
    cases Perc.getBondGids env S ub with
    | error e => rfl
    | ok gids =>
      show (pyGet gids 0 >>= _) = (pyGet gids 0 >>= _).map _
      cases pyGet gids 0 with
      | error e => rfl
      | ok root0 =>
        show (Perc.chooseRoot S.pool (S.afterWrapping && decide (S.wrappingId ∈ gids)) S.wrappingId gids root0 0 >>= _) =
          (Perc.chooseRoot S.pool (S.afterWrapping && decide (S.wrappingId ∈ gids)) S.wrappingId gids root0 0 >>= _).map _
        cases Perc.chooseRoot S.pool (S.afterWrapping && decide (S.wrappingId ∈ gids)) S.wrappingId gids root0 0 with
        | error e => rfl
        | ok root =>
          show (Perc.assignLoop k root ub (S.over T) >>= _) = (Perc.assignLoop k root ub S >>= _).map _
          rw [assignLoop_over]
          cases Perc.assignLoop k root ub S with
          | error e => rfl
          | ok S1 =>
            show (Perc.mergeLoop k root ub (S1.over T) >>= _) = (Perc.mergeLoop k root ub S1 >>= _).map _
            rw [mergeLoop_over]
            cases Perc.mergeLoop k root ub S1 with
            | error e => rfl
            | ok S2 =>
              show (Perc.clearLoop root gids S2.pool >>= _) = (Perc.clearLoop root gids S2.pool >>= _).map _
              cases Perc.clearLoop root gids S2.pool <;> rfl

theorem placeSelected_over (S T : Perc α) (k : Nat) : (S.over T).placeSelected env k = (S.placeSelected env k).map (·.over T) := by
  simp only [Perc.placeSelected]
  show (S.lat.initRelativeIndex k >>= _) = (S.lat.initRelativeIndex k >>= _).map _
  cases S.lat.initRelativeIndex k with
  | error e => rfl
  | ok lat =>
    show (lat.getNeighborBonds k >>= _) = (lat.getNeighborBonds k >>= _).map _
    cases lat.getNeighborBonds k with
    | error e => rfl
    | ok bs =>
      show (Perc.entropySubtract env (Perc.over { S with lat := lat } T) k >>= _) = (Perc.entropySubtract env { S with lat := lat } k >>= _).map _
      rw [entropySubtract_over]
      cases Perc.entropySubtract env { S with lat := lat } k with
      | error e => rfl
      | ok S1 =>
        show (Perc.mergeClustersV2 env (S1.over T) k bs >>= _) = (Perc.mergeClustersV2 env S1 k bs >>= _).map _
        rw [mergeClustersV2_over]
        cases Perc.mergeClustersV2 env S1 k bs with
        | error e => rfl
        | ok r =>
          show (Perc.trackLargest (r.1.over T) r.2 >>= _) = (Perc.trackLargest r.1 r.2 >>= _).map _
          rw [trackLargest_over]
          cases Perc.trackLargest r.1 r.2 with
          | error e => rfl
          | ok S2 => exact entropyAdd_over S2 T r.2


/-! ### The selection, with a list made for one candidate -/

theorem finishSelect_over {S S' T : Perc α} {k : Nat} {f : SelectionState} (h : S.finishSelect k = .ok (S', f)) :
    (S.over T).finishSelect k = .ok (S'.over T, f) := by
  simp only [Perc.finishSelect] at h ⊢
  show (S.lat.getSite k >>= _) = _
  cases hg : S.lat.getSite k with
  | error e => rw [hg] at h; cases h
  | ok st =>
    rw [hg] at h
    show (pyAssert _ >>= _) = _
    replace h : (pyAssert (decide (st.gid = -1)) >>= fun _ => Except.ok (_, SelectionState.success)) = Except.ok (S', f) := h
    cases ha : pyAssert (decide (st.gid = -1)) with
    | error e => rw [ha] at h; cases h
    | ok u =>
      rw [ha] at h
      obtain ⟨rfl, rfl⟩ := Prod.mk.inj (Except.ok.inj h)
      rfl

theorem dropCandidate_over {S S' T : Perc α} {r x : Nat} (h : S.dropCandidate r = .ok S') (hT : T.siteIds = List.replicate (S.currentIdx + 1) x) :
    ∃ U : Perc α, (S.over T).dropCandidate S.currentIdx = .ok (S'.over U) := by
  simp only [Perc.dropCandidate] at h
  cases h1 : pyGet S.siteIds S.currentIdx with
  | error e => rw [h1] at h; cases h
  | ok c =>
    rw [h1] at h
    replace h : (pyModify S.siteIds r (fun _ => c) >>= fun ids => Except.ok _) = Except.ok S' := h
    cases h2 : pyModify S.siteIds r fun _ => c with
    | error e => rw [h2] at h; cases h
    | ok ids =>
      rw [h2] at h
      have h := (Except.ok.inj h).symm
      subst h
      have e : T.siteIds[S.currentIdx]? = some x := by rw [hT, List.getElem?_replicate]; simp
      refine ⟨{ T with siteIds := T.siteIds.set S.currentIdx x }, ?_⟩
      simp only [Perc.dropCandidate]
      show (pyGet T.siteIds S.currentIdx >>= _) = _
      have e1 : pyGet T.siteIds S.currentIdx = .ok x := by simp only [pyGet, e]
      rw [e1]
      show (pyModify T.siteIds S.currentIdx (fun _ => x) >>= _) = _
      have e2 : pyModify T.siteIds S.currentIdx (fun _ => x) = .ok (T.siteIds.set S.currentIdx x) := by simp only [pyModify, e]
      rw [e2]
      rfl

/-- `select_site` of L1 once the candidate `x` at position `rnd` is known (percolation_sq_lattice_L1L2.py:91-127). -/
def Perc.tailL1 (S : Perc α) (d : Draw) (rnd x : Nat) : Py (Perc α × SelectionState) := do
    let xs ← S.lat.getSite x
    if xs.isOccupied then
      let S := { S with xOccupied := S.xOccupied + 1 }
      let sites ← S.lat.getAllNeighborSites x
      let r2 ← randint 0 sites.length d.b
      let y ← pyGet sites r2
      let ys ← S.lat.getSite y
      if ys.isOccupied then
        let xs ← xs.reduceNn1
        let sts ← pyModify S.lat.sites x fun _ => xs
        let S := { S with lat := { S.lat with sites := sts } }
        if xs.isRemovable 1 then
          let S ← S.dropCandidate rnd
          return (S, .currentSiteNotEmpty)
        else return (S, .currentSiteNotEmpty)
      else Perc.finishSelect { S with seqRecord := S.seqRecord ++ [y] } y
    else Perc.finishSelect { S with seqRecord := S.seqRecord ++ [x] } x

/-- `select_site` of L2 once the candidate `x` at position `rnd` is known (percolation_sq_lattice_L1L2.py:201-244). -/
def Perc.tailL2 (S : Perc α) (d : Draw) (rnd x : Nat) : Py (Perc α × SelectionState) := do
    let xs ← S.lat.getSite x
    if xs.isOccupied then
      let sites ← S.lat.getAllNeighborSites x
      let r2 ← randint 0 sites.length d.b
      let y ← pyGet sites r2
      let S := { S with xOccupied := S.xOccupied + 1 }
      let ys ← S.lat.getSite y
      if ys.isOccupied then
        let xs ← xs.reduceNn1
        let sts ← pyModify S.lat.sites x fun _ => xs
        let S := { S with lat := { S.lat with sites := sts } }
        let z ← Perc.siteBeyond S.lat x y
        let zs ← S.lat.getSite z
        if zs.isOccupied then
          let S := { S with yOccupied := S.yOccupied + 1 }
          let xs ← xs.reduceNn2
          let sts ← pyModify S.lat.sites x fun _ => xs
          let S := { S with lat := { S.lat with sites := sts } }
          if xs.isRemovable 2 then
            let S ← S.dropCandidate rnd
            return (S, .currentSiteNotEmpty)
          else return (S, .currentSiteNotEmpty)
        else Perc.finishSelect S z
      else Perc.finishSelect S y
    else Perc.finishSelect S x

theorem selectL1_tail (S : Perc α) (d : Draw) : S.selectL1 d = if S.currentIdx ≥ S.lat.siteCount then .ok (S, .emptySiteList) else
    randint S.currentIdx S.siteIds.length d.a >>= fun rnd => pyGet S.siteIds rnd >>= fun x => S.tailL1 d rnd x := rfl

theorem selectL2_tail (S : Perc α) (d : Draw) : S.selectL2 d = if S.currentIdx ≥ S.lat.siteCount then .ok (S, .emptySiteList) else
    randint S.currentIdx S.siteIds.length d.a >>= fun rnd => pyGet S.siteIds rnd >>= fun x => S.tailL2 d rnd x := rfl

/-- The step that all the proofs below consist of. -/
theorem bind_over {β γ : Type} {m : Py β} {f g : β → Py γ} {Q : γ → γ → Prop} (h : ∀ a, m = .ok a → ∀ c, f a = .ok c → ∃ c', g a = .ok c' ∧ Q c c') :
    ∀ c, (m >>= f) = .ok c → ∃ c', (m >>= g) = .ok c' ∧ Q c c' := by
  intro c hc
  cases hm : m with
  | error e => rw [hm] at hc; cases hc
  | ok a => rw [hm] at hc; exact h a hm c hc

theorem ite_over {γ : Type} {p : Prop} [Decidable p] {f g f' g' : Py γ} {Q : γ → γ → Prop} (h1 : p → ∀ c, f = .ok c → ∃ c', g = .ok c' ∧ Q c c')
    (h2 : ¬ p → ∀ c, f' = .ok c → ∃ c', g' = .ok c' ∧ Q c c') : ∀ c, (if p then f else f') = .ok c → ∃ c', (if p then g else g') = .ok c' ∧ Q c c' := by
  intro c hc
  by_cases hp : p
  · rw [if_pos hp] at hc ⊢; exact h1 hp c hc
  · rw [if_neg hp] at hc ⊢; exact h2 hp c hc

/-- The result with the other list. -/
def OverRes (r r' : Perc α × SelectionState) : Prop := r'.2 = r.2 ∧ ∃ U : Perc α, r'.1 = r.1.over U

theorem finish_over {S T : Perc α} {k : Nat} : ∀ r, S.finishSelect k = .ok r → ∃ r', (S.over T).finishSelect k = .ok r' ∧ OverRes r r' := by
  rintro ⟨S', f⟩ h
  exact ⟨_, finishSelect_over h, rfl, T, rfl⟩

theorem drop_over {S T : Perc α} {rnd x : Nat} (hT : T.siteIds = List.replicate (S.currentIdx + 1) x) :
    ∀ r, (S.dropCandidate rnd >>= fun S => Except.ok (S, SelectionState.currentSiteNotEmpty)) = .ok r →
      ∃ r', ((S.over T).dropCandidate S.currentIdx >>= fun S => Except.ok (S, SelectionState.currentSiteNotEmpty)) = .ok r' ∧ OverRes r r' := by
  intro r h
  cases h1 : S.dropCandidate rnd with
  | error e => rw [h1] at h; cases h
  | ok S' =>
    rw [h1] at h
    have h := (Except.ok.inj h).symm
    subst h
    obtain ⟨U, hU⟩ := dropCandidate_over h1 hT
    rw [hU]
    exact ⟨_, rfl, rfl, U, rfl⟩

theorem tailL1_over {S T : Perc α} {d : Draw} {rnd x : Nat} (hT : T.siteIds = List.replicate (S.currentIdx + 1) x) :
    ∀ r, S.tailL1 d rnd x = .ok r → ∃ r', (S.over T).tailL1 d S.currentIdx x = .ok r' ∧ OverRes r r' := by
  simp only [Perc.tailL1]
  refine bind_over (m := S.lat.getSite x) fun xs _ => ?_
  refine ite_over (fun _ => ?_) fun _ => ?_
  · refine bind_over (m := S.lat.getAllNeighborSites x) fun sites _ => ?_
    refine bind_over fun r2 _ => ?_
    refine bind_over fun y _ => ?_
    refine bind_over (m := S.lat.getSite y) fun ys _ => ?_
    refine ite_over (fun _ => ?_) fun _ => ?_
    · refine bind_over fun xs _ => ?_
      refine bind_over (m := pyModify S.lat.sites x fun _ => xs) fun sts _ => ?_
      refine ite_over (fun _ => ?_) fun _ => ?_
      · exact drop_over (S := { S with xOccupied := S.xOccupied + 1, lat := { S.lat with sites := sts } }) hT
      · intro r h
        have h := (Except.ok.inj h).symm
        subst h
        exact ⟨_, rfl, rfl, T, rfl⟩
    · exact finish_over (S := { S with xOccupied := S.xOccupied + 1, seqRecord := S.seqRecord ++ [y] })
  · exact finish_over (S := { S with seqRecord := S.seqRecord ++ [x] })

theorem tailL2_over {S T : Perc α} {d : Draw} {rnd x : Nat} (hT : T.siteIds = List.replicate (S.currentIdx + 1) x) :
    ∀ r, S.tailL2 d rnd x = .ok r → ∃ r', (S.over T).tailL2 d S.currentIdx x = .ok r' ∧ OverRes r r' := by
  simp only [Perc.tailL2]
  refine bind_over (m := S.lat.getSite x) fun xs _ => ?_
  refine ite_over (fun _ => ?_) fun _ => ?_
  · refine bind_over (m := S.lat.getAllNeighborSites x) fun sites _ => ?_
    refine bind_over fun r2 _ => ?_
    refine bind_over fun y _ => ?_
    refine bind_over (m := S.lat.getSite y) fun ys _ => ?_
    refine ite_over (fun _ => ?_) fun _ => ?_
    · refine bind_over fun xs _ => ?_
      refine bind_over (m := pyModify S.lat.sites x fun _ => xs) fun sts _ => ?_
      refine bind_over (m := Perc.siteBeyond { S.lat with sites := sts } x y) fun z _ => ?_
      refine bind_over (m := Lattice.getSite { S.lat with sites := sts } z) fun zs _ => ?_
      refine ite_over (fun _ => ?_) fun _ => ?_
      · refine bind_over fun xs _ => ?_
        refine bind_over (m := pyModify sts x fun _ => xs) fun sts2 _ => ?_
        refine ite_over (fun _ => ?_) fun _ => ?_
        · exact drop_over (S := { S with xOccupied := S.xOccupied + 1, yOccupied := S.yOccupied + 1, lat := { S.lat with sites := sts2 } }) hT
        · intro r h
          have h := (Except.ok.inj h).symm
          subst h
          exact ⟨_, rfl, rfl, T, rfl⟩
      · exact finish_over (S := { S with xOccupied := S.xOccupied + 1, lat := { S.lat with sites := sts } })
    · exact finish_over (S := { S with xOccupied := S.xOccupied + 1 })
  · exact finish_over

theorem tailL1_site {S : Perc α} {d : Draw} {rnd x : Nat} {r} (h : S.tailL1 d rnd x = .ok r) : ∃ st, S.lat.getSite x = .ok st := by
  simp only [Perc.tailL1] at h
  cases hg : S.lat.getSite x with
  | error e => rw [hg] at h; cases h
  | ok st => exact ⟨st, rfl⟩

theorem tailL2_site {S : Perc α} {d : Draw} {rnd x : Nat} {r} (h : S.tailL2 d rnd x = .ok r) : ∃ st, S.lat.getSite x = .ok st := by
  simp only [Perc.tailL2] at h
  cases hg : S.lat.getSite x with
  | error e => rw [hg] at h; cases h
  | ok st => exact ⟨st, rfl⟩

theorem randint_one (c d : Nat) : randint c (c + 1) d = .ok c := by
  simp [randint, Nat.mod_one]

/-- Whatever `select_site` does, it does with a list made for the candidate it has drawn. -/
theorem selectSite_over {S S' : Perc α} {d : Draw} {f : SelectionState} (h : S.selectSite v d = .ok (S', f)) :
    (f = .emptySiteList ∧ S' = S) ∨ ∃ x, (∃ st, S.lat.getSite x = .ok st) ∧ ∀ T : Perc α, T.siteIds = List.replicate (S.currentIdx + 1) x →
      T.maxIter = S.currentIdx + 1 → ∃ U : Perc α, (S.over T).selectSite v d = .ok (S'.over U, f) := by
  have plain : S.selectL0 = .ok (S', f) → (f = .emptySiteList ∧ S' = S) ∨ ∃ x, (∃ st, S.lat.getSite x = .ok st) ∧
      ∀ T : Perc α, T.siteIds = List.replicate (S.currentIdx + 1) x → T.maxIter = S.currentIdx + 1 → ∃ U : Perc α, (S.over T).selectL0 = .ok (S'.over U, f) := by
    intro h
    simp only [Perc.selectL0] at h
    split at h
    · obtain ⟨rfl, rfl⟩ := Prod.mk.inj (Except.ok.inj h)
      exact .inl ⟨rfl, rfl⟩
    · right
      cases h1 : pyGet S.siteIds S.currentIdx with
      | error e => rw [h1] at h; cases h
      | ok k =>
        rw [h1] at h
        replace h : (S.lat.getSite k >>= _) = _ := h
        cases h2 : S.lat.getSite k with
        | error e => rw [h2] at h; cases h
        | ok st =>
          rw [h2] at h
          replace h : (pyAssert (decide (st.gid = -1)) >>= fun _ => Except.ok (_, SelectionState.success)) = Except.ok (S', f) := h
          cases h3 : pyAssert (decide (st.gid = -1)) with
          | error e => rw [h3] at h; cases h
          | ok u =>
            rw [h3] at h
            obtain ⟨rfl, rfl⟩ := Prod.mk.inj (Except.ok.inj h)
            refine ⟨k, ⟨st, h2⟩, fun T hT hM => ⟨T, ?_⟩⟩
            simp only [Perc.selectL0]
            show (if S.currentIdx ≥ T.maxIter then _ else _) = _
            rw [if_neg (by omega)]
            show (pyGet T.siteIds S.currentIdx >>= _) = _
            have e : pyGet T.siteIds S.currentIdx = .ok k := by
              simp only [pyGet, hT, List.getElem?_replicate]; simp
            rw [e]
            show (S.lat.getSite k >>= _) = _
            rw [h2]
            show (pyAssert (decide (st.gid = -1)) >>= _) = _
            rw [h3]
            rfl
  have get : ∀ (T : Perc α) x, T.siteIds = List.replicate (S.currentIdx + 1) x → pyGet T.siteIds S.currentIdx = .ok x := by
    intro T x hT
    simp only [pyGet, hT, List.getElem?_replicate]; simp
  cases v with
  | l0 => exact plain h
  | sp => exact plain h
  | l1 =>
    replace h : S.selectL1 d = .ok (S', f) := h
    rw [selectL1_tail] at h
    split at h
    · obtain ⟨rfl, rfl⟩ := Prod.mk.inj (Except.ok.inj h)
      exact .inl ⟨rfl, rfl⟩
    · next hc =>
      right
      cases h1 : randint S.currentIdx S.siteIds.length d.a with
      | error e => rw [h1] at h; cases h
      | ok rnd =>
        rw [h1] at h
        replace h : (pyGet S.siteIds rnd >>= fun x => S.tailL1 d rnd x) = .ok (S', f) := h
        cases h2 : pyGet S.siteIds rnd with
        | error e => rw [h2] at h; cases h
        | ok x =>
          rw [h2] at h
          replace h : S.tailL1 d rnd x = .ok (S', f) := h
          refine ⟨x, tailL1_site h, fun T hT _ => ?_⟩
          obtain ⟨⟨R, g⟩, h3, e1, U, e2⟩ := tailL1_over hT _ h
          replace e1 : g = f := e1
          replace e2 : R = S'.over U := e2
          subst e1 e2
          refine ⟨U, ?_⟩
          show (S.over T).selectL1 d = _
          rw [selectL1_tail]
          show (if S.currentIdx ≥ S.lat.siteCount then _ else randint S.currentIdx T.siteIds.length d.a >>= fun rnd => pyGet T.siteIds rnd >>= fun x => (S.over T).tailL1 d rnd x) = _
          rw [if_neg hc, congrArg List.length hT, List.length_replicate, randint_one]
          show (pyGet T.siteIds S.currentIdx >>= fun x => (S.over T).tailL1 d S.currentIdx x) = _
          rw [get T x hT]
          exact h3
  | l2 =>
    replace h : S.selectL2 d = .ok (S', f) := h
    rw [selectL2_tail] at h
    split at h
    · obtain ⟨rfl, rfl⟩ := Prod.mk.inj (Except.ok.inj h)
      exact .inl ⟨rfl, rfl⟩
    · next hc =>
      right
      cases h1 : randint S.currentIdx S.siteIds.length d.a with
      | error e => rw [h1] at h; cases h
      | ok rnd =>
        rw [h1] at h
        replace h : (pyGet S.siteIds rnd >>= fun x => S.tailL2 d rnd x) = .ok (S', f) := h
        cases h2 : pyGet S.siteIds rnd with
        | error e => rw [h2] at h; cases h
        | ok x =>
          rw [h2] at h
          replace h : S.tailL2 d rnd x = .ok (S', f) := h
          refine ⟨x, tailL2_site h, fun T hT _ => ?_⟩
          obtain ⟨⟨R, g⟩, h3, e1, U, e2⟩ := tailL2_over hT _ h
          replace e1 : g = f := e1
          replace e2 : R = S'.over U := e2
          subst e1 e2
          refine ⟨U, ?_⟩
          show (S.over T).selectL2 d = _
          rw [selectL2_tail]
          show (if S.currentIdx ≥ S.lat.siteCount then _ else randint S.currentIdx T.siteIds.length d.a >>= fun rnd => pyGet T.siteIds rnd >>= fun x => (S.over T).tailL2 d rnd x) = _
          rw [if_neg hc, congrArg List.length hT, List.length_replicate, randint_one]
          show (pyGet T.siteIds S.currentIdx >>= fun x => (S.over T).tailL2 d S.currentIdx x) = _
          rw [get T x hT]
          exact h3


theorem detectWrapping_over (S T : Perc α) :
    (S.over T).detectWrapping = S.detectWrapping.map fun r => (r.1.over T, r.2) := by
  simp only [Perc.detectWrapping]
  show (if S.afterWrapping then _ else _) = Except.map _ (if S.afterWrapping then _ else _)
  split
  · rfl
  · show (match S.selected with | none => _ | some k => _) = Except.map _ (match S.selected with | none => _ | some k => _)
    cases hsel : S.selected with
    | none => rfl
    | some k =>
      show (S.lat.getSitesForWrappingTest k >>= _) = (S.lat.getSitesForWrappingTest k >>= _).map _
      cases S.lat.getSitesForWrappingTest k with
      | error e => rfl
      | ok nbrs =>
        show (S.lat.getSite k >>= _) = (S.lat.getSite k >>= _).map _
        cases S.lat.getSite k with
        | error e => rfl
        | ok c =>
          show (Perc.wrapScan S.lat c.rel nbrs >>= _) = (Perc.wrapScan S.lat c.rel nbrs >>= _).map _
          cases Perc.wrapScan S.lat c.rel nbrs with
          | error e => rfl
          | ok hit =>
            cases hit with
            | false => rfl
            | true =>
              show (S.pool.bondCount c.gid >>= _) = (S.pool.bondCount c.gid >>= _).map _
              cases S.pool.bondCount c.gid with
              | error e => rfl
              | ok bc =>
                show (S.pool.siteCount c.gid >>= _) = (S.pool.siteCount c.gid >>= _).map _
                cases S.pool.siteCount c.gid with
                | error e => rfl
                | ok sc => simp only [Perc.over, hsel]; rfl

/-! ### Calls -/

/-- The list with which any candidate can be offered next. -/
theorem offer_ok {S T : Perc α} (hT : Reach env v L (S.over T)) {x : Nat} (hx : x < L * L) (n : Nat) :
    Reach env v L (S.over { T with siteIds := List.replicate (n + 1) x, modeCustom := true, doShuffle := false, maxIter := n + 1 }) := by
  obtain ⟨_, A, M, _⟩ := hT.sim
  refine .step (.setIds (List.replicate (n + 1) (x : Int)) false fun _ => 0) hT ?_
  show (S.over T).setCustomIds _ _ _ = _
  have hne : List.replicate (n + 1) (x : Int) ≠ [] := by rw [List.replicate_succ]; exact List.cons_ne_nil _ _
  have hl : (S.over T).lat.length = L := by rw [M.lat]; rfl
  have hbad : ¬ Perc.badIds (S.over T).lat.length (List.replicate (n + 1) (x : Int)) = true := by
    rw [hl, Bool.not_eq_true, badIds_iff hne]
    intro i hi
    rw [List.eq_of_mem_replicate hi]
    exact ⟨Int.natCast_nonneg x, by exact_mod_cast hx⟩
  simp only [Perc.setCustomIds]
  rw [if_neg (by simp), if_neg hbad]
  simp only [Perc.shuffle, List.map_replicate, List.length_replicate]
  rfl

theorem emulate_place {S S' T : Perc α} {d : Draw} {b : Bool} (hT : Reach env v L (S.over T)) (h : S.placeOneSite env v d = .ok (S', b)) :
    ∃ T', Reach env v L (S'.over T') := by
  have h0 := h
  simp only [Perc.placeOneSite] at h
  cases h1 : S.selectSite v d with
  | error e => rw [h1] at h; cases h
  | ok r =>
    obtain ⟨S1, f⟩ := r
    rw [h1] at h
    rcases selectSite_over h1 with ⟨rfl, rfl⟩ | ⟨x, ⟨st, hx⟩, hU⟩
    · have h := (Prod.mk.inj (Except.ok.inj h)).1.symm
      subst h
      exact ⟨T, hT⟩
    · obtain ⟨_, A, M, _⟩ := hT.sim
      have hxl : x < L * L := by
        by_contra hc
        have : (S.over T).lat.getSite x = .ok st := hx
        rw [M.lat, getSite_mk_error (by omega)] at this
        cases this
      have hR := offer_ok hT hxl S.currentIdx
      obtain ⟨U, hs⟩ := hU { T with siteIds := List.replicate (S.currentIdx + 1) x, modeCustom := true, doShuffle := false, maxIter := S.currentIdx + 1 } rfl rfl
      have key : ∃ T' b, (S.over { T with siteIds := List.replicate (S.currentIdx + 1) x, modeCustom := true, doShuffle := false, maxIter := S.currentIdx + 1 }).placeOneSite env v d = .ok (S'.over T', b) := by
        simp only [Perc.placeOneSite]
        rw [hs]
        cases f with
        | emptySiteList =>
          have h := (Prod.mk.inj (Except.ok.inj h)).1.symm
          subst h
          exact ⟨{ U with selectionFlag := some .emptySiteList }, _, rfl⟩
        | currentSiteNotEmpty =>
          have h := (Prod.mk.inj (Except.ok.inj h)).1.symm
          subst h
          exact ⟨{ U with selectionFlag := some .currentSiteNotEmpty }, _, rfl⟩
        | success =>
          replace h : (match S1.selected with
            | none => (Except.error .typeError : Py (Perc α × Bool))
            | some k => Perc.placeSelected env { S1 with selectionFlag := some .success } k >>= fun S => Except.ok (S, true)) = .ok (S', b) := h
          show ∃ T' b, (match S1.selected with
            | none => (Except.error .typeError : Py (Perc α × Bool))
            | some k => Perc.placeSelected env (Perc.over { S1 with selectionFlag := some .success } { U with selectionFlag := some .success }) k >>= fun S => Except.ok (S, true)) =
              .ok (S'.over T', b)
          generalize hW : ({ S1 with selectionFlag := some .success } : Perc α) = W at h ⊢
          cases hk : S1.selected with
          | none => rw [hk] at h; cases h
          | some k =>
            rw [hk] at h
            simp only at h ⊢
            rw [placeSelected_over]
            cases hp : Perc.placeSelected env W k with
            | error e => rw [hp] at h; cases h
            | ok S2 =>
              rw [hp] at h
              have h := (Prod.mk.inj (Except.ok.inj h)).1.symm
              subst h
              exact ⟨_, _, rfl⟩
      obtain ⟨T', b', hp⟩ := key
      exact ⟨T', .step (.place d) hR (by simp only [SqPerc.step, hp]; rfl)⟩

theorem emulate_raised {S T : Perc α} {d : Draw} {e : PyErr} (hT : Reach env v L (S.over T)) (h : S.placeOneSite env v d = .error e) :
    ∃ T', Reach env v L ((S.placeRaised v).over T') := by
  obtain ⟨_, A, M, hA⟩ := hT.sim
  have M' : Sim env L S A := M.aux rfl rfl rfl rfl rfl rfl rfl rfl rfl rfl rfl rfl rfl rfl
  rcases placeRaised_cases M' hA.inv h with h | ⟨k, h1, h2, h3, hk, hg, h⟩
  · rw [h]; exact ⟨T, hT⟩
  · have hR := offer_ok hT hk S.currentIdx
    have hL : S.lat = mkLat L A.V := M'.lat
    generalize hU : ({ T with siteIds := List.replicate (S.currentIdx + 1) k, modeCustom := true, doShuffle := false, maxIter := S.currentIdx + 1 } : Perc α) = U at hR
    have hUi : U.siteIds[S.currentIdx]? = some k := by rw [← hU]; simp [List.getElem?_replicate]
    have hUm : U.maxIter = S.currentIdx + 1 := by rw [← hU]
    have hs : (S.over U).selectL0 = .error .assertionError := by
      simp only [Perc.selectL0]
      show (if S.currentIdx ≥ U.maxIter then _ else _) = _
      rw [if_neg (by omega)]
      show (pyGet U.siteIds S.currentIdx >>= _) = _
      simp only [pyGet, hUi]
      show (S.lat.getSite k >>= _) = _
      rw [hL, getSite_mk hk]
      show (pyAssert (decide (A.V.sg k = -1)) >>= _) = _
      rw [show decide (A.V.sg k = -1) = false from decide_eq_false (by omega)]
      rfl
    have hp : (S.over U).placeOneSite env v d = .error .assertionError := by
      have : (S.over U).selectSite v d = .error .assertionError := by cases v <;> first | exact hs | cases h1
      simp only [Perc.placeOneSite, this]; rfl
    refine ⟨U, ?_⟩
    have := Reach.caught (.place d) hR (e := .assertionError) (by simp only [SqPerc.step, hp]; rfl) (by simp)
    have e : stepRaised env v (S.over U) (.place d) = (S.placeRaised v).over U := by
      rw [h]
      have : (S.over U).placeRaised v = { S.over U with selected := some k } := by
        have g : (match U.siteIds[S.currentIdx]? with
            | some k => (match S.lat.getSite k with
              | .ok _ => { S.over U with selected := some k }
              | .error _ => S.over U)
            | none => S.over U) = { S.over U with selected := some k } := by rw [hUi, hL]; simp only [getSite_mk hk]
        cases v <;> first | exact g | cases h1
      exact this
    rw [← e]
    exact this

theorem emulate_reset {S S' T : Perc α} {draws : Nat → Nat} (hT : Reach env v L (S.over T)) (h : S.reset env v draws = .ok S') :
    ∃ T', Reach env v L (S'.over T') := by
  obtain ⟨_, A, M, hA⟩ := hT.sim
  obtain ⟨R, hR⟩ := hT.reset_total draws
  have hr := hR
  simp only [Perc.reset] at h hR
  cases h1 : S.resetBase draws with
  | error e => rw [h1] at h; cases h
  | ok S1 =>
    cases h2 : (S.over T).resetBase draws with
    | error e => rw [h2] at hR; cases hR
    | ok R1 =>
      rw [h1] at h
      rw [h2] at hR
      obtain ⟨ids, rev, rfl⟩ := resetBase_ok (S := S) M.lat h1
      obtain ⟨ids', rev', rfl⟩ := resetBase_ok M.lat h2
      refine ⟨R, ?_⟩
      have : S'.over R = R := by
        cases v <;> (have h := (Except.ok.inj h).symm; have hR := (Except.ok.inj hR).symm; subst h; subst hR; rfl)
      rw [this]
      exact .step (.reset draws) hT hr


/-- Every step of an object with its member lists has a counterpart. -/
theorem emulate_quiet {S S' T : Perc α} (hT : Reach env v L (S.over T)) (hq : Quiet env v S S') : ∃ T', Reach env v L (S'.over T') := by
  cases hq with
  | detect h =>
    refine ⟨T, .step .detect hT ?_⟩
    simp only [SqPerc.step, detectWrapping_over, h]; rfl
  | shuffle h => obtain ⟨ids, rev, rfl⟩ := shuffle_ok h; exact ⟨T, hT⟩
  | setIds h =>
    simp only [Perc.setCustomIds] at h
    split at h
    · cases h
    · split at h
      · rw [← Except.ok.inj h]; exact ⟨T, hT⟩
      · obtain ⟨ids, rev, rfl⟩ := shuffle_ok h; exact ⟨T, hT⟩
  | setIndices h =>
    simp only [Perc.setCustomIndices] at h
    split at h
    · cases h
    · split at h
      · rw [← Except.ok.inj h]; exact ⟨T, hT⟩
      · obtain ⟨ids, rev, rfl⟩ := shuffle_ok h; exact ⟨T, hT⟩
  | swapIds h => obtain ⟨ids, rev, rfl⟩ := swapIds_ok h; exact ⟨T, hT⟩
  | raised h => exact emulate_raised hT h
  | @swapRaised i j e h => obtain ⟨ids, e⟩ := swapRaised_form S i j; rw [e]; exact ⟨T, hT⟩
  | data fr l1 l2 l3 l4 p => exact ⟨T, hT⟩
  | write l => exact ⟨T, hT⟩

/-- A property that the elementary steps keep is kept by every call that returns. -/
theorem step_ind (Q : Perc α → Prop) (hp : ∀ {S S' : Perc α} {d : Draw} {b : Bool}, Q S → S.placeOneSite env v d = .ok (S', b) → Q S')
    (hd : ∀ {S S' : Perc α} {w : Bool}, Q S → S.detectWrapping = .ok (S', w) → Q S')
    (hdata : ∀ {S : Perc α} (fr : Bool) (l1 l2 l3 l4 : List α) (p : α), Q S →
      Q { S with firstRun := fr, occProbList := l1, entropyList := l2, orderWrapList := l3, orderLargestList := l4, shortestP := p })
    (hreset : ∀ {S S' : Perc α} {draws : Nat → Nat}, Q S → S.reset env v draws = .ok S' → Q S')
    (hshuffle : ∀ {S S' : Perc α} {draws : Nat → Nat}, Q S → S.shuffle draws = .ok S' → Q S')
    (hsetIds : ∀ {S S' : Perc α} {ids : List Int} {b : Bool} {draws : Nat → Nat}, Q S → S.setCustomIds ids b draws = .ok S' → Q S')
    (hsetIndices : ∀ {S S' : Perc α} {idxs : List (List Int)} {b : Bool} {draws : Nat → Nat}, Q S → S.setCustomIndices idxs b draws = .ok S' → Q S')
    (hswapIds : ∀ {S S' : Perc α} {i j : Nat}, Q S → S.swapIds i j = .ok S' → Q S')
    {S S' : Perc α} {op : Op} (h0 : Q S) (hs : SqPerc.step env v S op = .ok S') : Q S' := by
  have hrec : ∀ {T T' : Perc α}, Q T → T.record env = .ok T' → Q T' := by
    intro T T' q h
    obtain ⟨p, _, rfl⟩ := record_ok h
    exact hdata T.firstRun _ _ _ _ T.shortestP q
  cases op with
  | place d =>
    simp only [SqPerc.step] at hs
    cases h1 : S.placeOneSite env v d with
    | error e => rw [h1] at hs; cases hs
    | ok r => rw [h1] at hs; rw [← Except.ok.inj hs]; exact hp (b := r.2) h0 h1
  | detect =>
    simp only [SqPerc.step] at hs
    cases h1 : S.detectWrapping with
    | error e => rw [h1] at hs; cases hs
    | ok r => rw [h1] at hs; rw [← Except.ok.inj hs]; exact hd (w := r.2) h0 h1
  | runOnce fuel ds =>
    simp only [SqPerc.step, Perc.runOnceV] at hs
    have gen : ∀ {S'}, S.runOnce env v fuel ds = .ok S' → Q S' := by
      intro S' h
      simp only [Perc.runOnce] at h
      cases h1 : Perc.runLoop env v fuel ds S with
      | error e => rw [h1] at h; cases h
      | ok S1 =>
        rw [h1] at h
        rw [← Except.ok.inj h]
        exact hdata false S1.occProbList S1.entropyList S1.orderWrapList S1.orderLargestList S1.shortestP
          (runLoop_ind Q hp hd
            hrec fuel h0 h1)
    cases v with
    | sp =>
      simp only [Perc.spRunOnce] at hs
      cases h1 : Perc.spLoop env fuel S with
      | error e => rw [h1] at hs; cases hs
      | ok r =>
        rw [h1] at hs
        rw [← Except.ok.inj hs]
        exact hdata false r.1.occProbList r.1.entropyList r.1.orderWrapList r.1.orderLargestList r.1.shortestP
          (spLoop_ind Q hp hd
            (fun {T p} q => hdata T.firstRun T.occProbList T.entropyList T.orderWrapList T.orderLargestList p q)
            fuel h0 (S' := r.1) (b := r.2) h1)
    | l0 => exact gen hs
    | l1 => exact gen hs
    | l2 => exact gen hs
  | testRunOnce fuel ds =>
    simp only [SqPerc.step, Perc.testRunOnce] at hs
    cases h1 : Perc.testRunLoop env v fuel ds S with
    | error e => rw [h1] at hs; cases hs
    | ok S1 =>
      rw [h1] at hs
      rw [← Except.ok.inj hs]
      exact hdata false S1.occProbList S1.entropyList S1.orderWrapList S1.orderLargestList S1.shortestP
        (testRunLoop_ind Q hp hd
          hrec fuel h0 h1)
  | reset draws => exact hreset h0 hs
  | shuffle draws => exact hshuffle h0 hs
  | setIds ids b draws => exact hsetIds h0 hs
  | setIndices ids b draws => exact hsetIndices h0 hs
  | swapIds i j => exact hswapIds h0 hs

/-- What holds throughout: the object has a counterpart in a history without interference, the list consists of site ids, and the reverse
index has its length. -/
structure LooseInv (env : Env α) (v : Variant) (L : Nat) (S : Perc α) : Prop where
  emul : ∃ T, Reach env v L (S.over T)
  ids : ∀ k ∈ S.siteIds, k < L * L
  rev : S.revIds.length = L * L

theorem LooseInv.sim {S : Perc α} (h : LooseInv env v L S) : ∃ A, Sim env L S A ∧ AReach env L A := by
  obtain ⟨T, hT⟩ := h.emul
  obtain ⟨_, A, M, hA⟩ := hT.sim
  exact ⟨A, M.aux rfl rfl rfl rfl rfl rfl rfl rfl rfl rfl rfl rfl rfl rfl, hA⟩

theorem LooseInv.order {S : Perc α} {ids rev : List Nat} {mc ds : Bool} {mi : Nat} (h : LooseInv env v L S) (hi : ∀ k ∈ ids, k < L * L)
    (hr : rev.length = S.revIds.length) : LooseInv env v L { S with siteIds := ids, revIds := rev, modeCustom := mc, doShuffle := ds, maxIter := mi } :=
  ⟨h.emul, hi, hr.trans h.rev⟩

theorem LooseInv.set {S S' : Perc α} {ids : List Int} {b : Bool} {draws : Nat → Nat} (q : LooseInv env v L S)
    (h : S.setCustomIds ids b draws = .ok S') : LooseInv env v L S' := by
  simp only [Perc.setCustomIds] at h
  split at h
  · cases h
  · split at h
    · rw [← Except.ok.inj h]; exact q
    · next hne hbad =>
      obtain ⟨ids', rev', rfl, hp, hr, _⟩ := shuffle_perm (L := L) h
      obtain ⟨A, M, hA⟩ := q.sim
      refine q.order (fun k hk => ?_) hr
      rw [show S.lat.length = L by rw [M.lat]; rfl, Bool.not_eq_true, badIds_iff (by simpa using hne)] at hbad
      obtain ⟨i, hi, rfl⟩ := List.mem_map.1 (hp.mem_iff.1 hk)
      have := hbad i hi
      omega

theorem Loose.inv {S : Perc α} (h : Loose env v L S) : LooseInv env v L S := by
  have hp : ∀ {S S' : Perc α} {d : Draw} {b : Bool}, LooseInv env v L S → S.placeOneSite env v d = .ok (S', b) → LooseInv env v L S' := by
    intro S S' d b q h
    obtain ⟨T, hT⟩ := q.emul
    obtain ⟨A, M, hA⟩ := q.sim
    obtain ⟨S1, f, h1, _, _, K⟩ := placeOneSite_select M hA.inv h
    refine ⟨emulate_place hT h, fun k hk => q.ids k (selectSite_ids M h1 k (by rw [← K.siteIds]; exact hk)), ?_⟩
    rw [(placeOneSite_sim M hA.inv h).1.rev]; exact q.rev
  have hd : ∀ {S S' : Perc α} {w : Bool}, LooseInv env v L S → S.detectWrapping = .ok (S', w) → LooseInv env v L S' := by
    intro S S' w q h
    obtain ⟨T, hT⟩ := q.emul
    obtain ⟨A, M, hA⟩ := q.sim
    have := emulate_quiet hT (.detect h)
    rcases detectWrapping_sim M hA.inv h with ⟨_, rfl, _⟩ | ⟨_, k, _, ⟨_, rfl, _⟩ | ⟨_, _, _, rfl⟩⟩ <;> exact ⟨this, q.ids, q.rev⟩
  have hdata : ∀ {S : Perc α} (fr : Bool) (l1 l2 l3 l4 : List α) (p : α), LooseInv env v L S →
      LooseInv env v L { S with firstRun := fr, occProbList := l1, entropyList := l2, orderWrapList := l3, orderLargestList := l4, shortestP := p } :=
    fun fr l1 l2 l3 l4 p q => ⟨q.emul, q.ids, q.rev⟩
  induction h with
  | new h => exact ⟨⟨_, .new h⟩, (Reach.new (v := v) h).ids.1, (Reach.new (v := v) h).ids.2⟩
  | step op _ hs ih =>
    refine step_ind (LooseInv env v L) hp hd hdata ?_ ?_ LooseInv.set ?_ ?_ ih hs
    · intro S S' draws q h
      obtain ⟨T, hT⟩ := q.emul
      obtain ⟨A, M, hA⟩ := q.sim
      exact ⟨emulate_reset hT h, (reset_ids M ⟨q.ids, q.rev⟩ h).1, (reset_ids M ⟨q.ids, q.rev⟩ h).2⟩
    · intro S S' draws q h
      obtain ⟨ids, rev, rfl, hp, hr, _⟩ := shuffle_perm (L := L) h
      exact q.order (fun k hk => q.ids k (hp.mem_iff.1 hk)) hr
    · intro S S' idxs b draws q h
      rw [C31_encodes] at h
      exact q.set h
    · intro S S' i j q h
      obtain ⟨ids, rev, rfl, hk⟩ := swapIds_kept (L := L) h
      exact q.order (hk.lt q.ids q.rev) hk.len
  | write l _ hl ih => exact ⟨ih.emul, hl, ih.rev⟩
  | caught op _ hs _ ih =>
    refine stepRaised_ind (LooseInv env v L) hp ?_ hd ?_ ?_ ih hs
    · intro S d e q h
      obtain ⟨T, hT⟩ := q.emul
      obtain ⟨A, M, hA⟩ := q.sim
      have := emulate_raised hT h
      rcases placeRaised_cases M hA.inv h with h | ⟨k, _, _, _, _, _, h⟩ <;> rw [h] at this ⊢ <;> exact ⟨this, q.ids, q.rev⟩
    · intro S S' q h
      obtain ⟨p, _, rfl⟩ := record_ok h
      exact hdata S.firstRun _ _ _ _ S.shortestP q
    · intro S i j e _ q h
      obtain ⟨ids, hi, hk⟩ := swapRaised_kept (L := L) h
      rw [hi]
      exact ⟨q.emul, hk.lt q.ids q.rev, q.rev⟩

end SqPerc
