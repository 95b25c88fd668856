import Verif.Proof.Select
/-
Every history of calls is simulated by the abstract machine.
-/
namespace SqPerc

set_option linter.unusedTactic false

variable {α : Type} {L : Nat} {env : Env α} {v : Variant}

/-- The fields that only the data collection and the run mode use. -/
structure SameAux (S S' : Perc α) : Prop where
  maxIter : S'.maxIter = S.maxIter
  firstRun : S'.firstRun = S.firstRun
  occProb : S'.occProbList = S.occProbList
  entList : S'.entropyList = S.entropyList
  owList : S'.orderWrapList = S.orderWrapList
  olList : S'.orderLargestList = S.orderLargestList
  custom : S'.modeCustom = S.modeCustom
  doSh : S'.doShuffle = S.doShuffle
  rev : S'.revIds = S.revIds

theorem SameAux.refl (S : Perc α) : SameAux S S := ⟨rfl, rfl, rfl, rfl, rfl, rfl, rfl, rfl, rfl⟩

theorem placeOneSite_sim {S S' : Perc α} {A : Abs α} {d : Draw} {b : Bool} (M : Sim env L S A) (I : AInv L A)
    (h : S.placeOneSite env v d = .ok (S', b)) :
    SameAux S S' ∧ ∃ V1, SameV A.V V1 ∧
      ((S'.selectionFlag = some .success ∧ b = true ∧ ∃ k r V' P', k < L * L ∧ A.V.sg k = -1 ∧
          PlaceEffect L k r V1 V' A.P P' ∧ RootRule L V1 A.P k A.aw A.wid r ∧ S'.selected = some k ∧
          Sim env L S' (({ A with V := V1 } : Abs α).placed env L k r V' P')) ∨
       (S'.selectionFlag = some .currentSiteNotEmpty ∧ b = true ∧ Sim env L S' { A with V := V1 }) ∨
       (S'.selectionFlag = some .emptySiteList ∧ b = false ∧ Sim env L S' { A with V := V1 })) := by
  simp only [Perc.placeOneSite] at h
  cases hs : S.selectSite v d with
  | error e => rw [hs] at h; cases h
  | ok res =>
    obtain ⟨S1, flag⟩ := res
    rw [hs] at h
    obtain ⟨V1, hV, E, hf⟩ := selectSite_sim M.lat hs
    have hSim : flag ≠ .success → Sim env L { S1 with selectionFlag := some flag } { A with V := V1 } := by
      intro hne
      obtain ⟨h1, h2⟩ := (hf.resolve_left fun h => hne h.1).2
      exact M.of_eq E.lat E.pool h1 E.lsz E.lid E.ent E.aw E.wid E.pco E.pcb E.pcs h2 E.me E.cc
    have hAux : SameAux S { S1 with selectionFlag := some flag } :=
      ⟨E.maxIter, E.firstRun, E.occProb, E.entList, E.owList, E.olList, E.custom, E.doSh, E.rev⟩
    cases flag with
    | emptySiteList =>
      replace h : (Except.ok ({ S1 with selectionFlag := some SelectionState.emptySiteList }, false) : Py (Perc α × Bool)) = _ := h
      injection h with h; injection h with h1 h2
      subst h1; subst h2
      exact ⟨hAux, V1, hV, Or.inr (Or.inr ⟨rfl, rfl, hSim (by simp)⟩)⟩
    | currentSiteNotEmpty =>
      replace h : (Except.ok ({ S1 with selectionFlag := some SelectionState.currentSiteNotEmpty }, true) : Py (Perc α × Bool)) = _ := h
      injection h with h; injection h with h1 h2
      subst h1; subst h2
      exact ⟨hAux, V1, hV, Or.inr (Or.inl ⟨rfl, rfl, hSim (by simp)⟩)⟩
    | success =>
      obtain ⟨_, hc, k, hk, hg, hsel⟩ := hf.resolve_right (fun h => h.1 rfl)
      replace h : (match ({ S1 with selectionFlag := some SelectionState.success } : Perc α).selected with
        | none => .error .typeError
        | some k => do
          let S ← Perc.placeSelected env { S1 with selectionFlag := some SelectionState.success } k
          return (S, true) : Py (Perc α × Bool)) = .ok (S', b) := h
      generalize hS2 : ({ S1 with selectionFlag := some SelectionState.success } : Perc α) = S2 at h hAux
      have hl2 : S2.lat = mkLat L V1 := by rw [← hS2]; exact E.lat
      have hp2 : S2.pool = mkPool (2 * (L * L)) A.P := by rw [← hS2]; exact E.pool.trans M.pool
      have hu1 : V1.sg k = -1 := by rw [hV.1]; exact hg
      have hsel2 : S2.selected = some k := by rw [← hS2]; exact hsel
      rw [hsel2] at h
      obtain ⟨V', P', r, e, EP, hr⟩ := placeSelected_mk env hl2 hp2 (I.core.same hV) hk hu1
      replace h : (S2.placeSelected env k >>= _) = _ := h
      rw [e] at h
      injection h with h; injection h with h1 h2
      subst h1; subst h2
      have haw : S2.afterWrapping = A.aw := by rw [← hS2]; exact E.aw.trans M.aw
      have hwid : S2.wrappingId = A.wid := by rw [← hS2]; exact E.wid.trans M.wid
      rw [haw, hwid] at hr
      refine ⟨?_, V1, hV, Or.inl ⟨by rw [← hS2]; rfl, rfl, k, r, V', P', hk, hg, EP, hr, hsel2, ?_⟩⟩
      · exact ⟨hAux.maxIter, hAux.firstRun, hAux.occProb, hAux.entList, hAux.owList, hAux.olList, hAux.custom, hAux.doSh, hAux.rev⟩
      · have hsz : S2.largestSz = A.lsz := by rw [← hS2]; exact E.lsz.trans M.lsz
        have hid : S2.largestId = A.lid := by rw [← hS2]; exact E.lid.trans M.lid
        have hent : S2.entropyValue = A.ent := by rw [← hS2]; exact E.ent.trans M.ent
        constructor
        · rfl
        · rfl
        · show S2.occupiedCount = A.count + 1
          rw [← hS2, ← M.count]; exact hc
        · show (if _ then _ else S2.largestSz) = _
          simp only [Abs.placed, hsz]
        · show (if _ then _ else S2.largestId) = _
          simp only [Abs.placed, hsz, hid]
        · show env.ar.sub (env.ar.add S2.entropyValue _) _ = _
          simp only [Abs.placed, hent]
        · exact haw
        · exact hwid
        · show S2.pcOccupied = A.pco; rw [← hS2]; exact E.pco.trans M.pco
        · show S2.pcBonds = A.pcb; rw [← hS2]; exact E.pcb.trans M.pcb
        · show S2.pcSites = A.pcs; rw [← hS2]; exact E.pcs.trans M.pcs
        · exact hsel2
        · show S2.maxEntropy = _; rw [← hS2]; exact E.me.trans M.me
        · show S2.clusterCount = _; rw [← hS2]; exact E.cc.trans M.cc

/-- `place_one_site` as steps of the abstract machine. -/
theorem placeOneSite_steps {S S' : Perc α} {A : Abs α} {d : Draw} {b : Bool} (M : Sim env L S A) (I : AInv L A)
    (h : S.placeOneSite env v d = .ok (S', b)) : ∃ A', ASteps env L A A' ∧ Sim env L S' A' := by
  obtain ⟨_, V1, hV, h | h | h⟩ := placeOneSite_sim M I h
  · obtain ⟨_, _, k, r, V', P', hk, hg, EP, hr, _, hM⟩ := h
    refine ⟨_, (Relation.ReflTransGen.single (AStep.tick hV)).tail ?_, hM⟩
    exact AStep.place (A := { A with V := V1 }) hk (by rw [hV.1]; exact hg) EP hr
  · exact ⟨_, Relation.ReflTransGen.single (AStep.tick hV), h.2.2⟩
  · exact ⟨_, Relation.ReflTransGen.single (AStep.tick hV), h.2.2⟩

/-- `detect_wrapping` as steps of the abstract machine. -/
theorem detectWrapping_steps {S S' : Perc α} {A : Abs α} {w : Bool} (M : Sim env L S A) (I : AInv L A)
    (h : S.detectWrapping = .ok (S', w)) : SameAux S S' ∧ S'.selectionFlag = S.selectionFlag ∧ S'.selected = S.selected ∧
      ∃ A', ASteps env L A A' ∧ Sim env L S' A' ∧ A'.aw = w ∧ A'.V = A.V ∧ A'.P = A.P ∧ A'.count = A.count ∧ A'.sel = A.sel := by
  rcases detectWrapping_sim M I h with ⟨h1, rfl, rfl⟩ | ⟨h1, k, hk, ⟨_, rfl, rfl⟩ | ⟨h0, hH, rfl, rfl⟩⟩
  · exact ⟨SameAux.refl _, rfl, rfl, A, .refl, M, h1, rfl, rfl, rfl, rfl⟩
  · exact ⟨SameAux.refl _, rfl, rfl, A, .refl, M, h1, rfl, rfl, rfl, rfl⟩
  · refine ⟨⟨rfl, rfl, rfl, rfl, rfl, rfl, rfl, rfl, rfl⟩, rfl, rfl, A.detected k, .single (AStep.detect h1 hk h0 hH), ?_, rfl, rfl, rfl, rfl, rfl⟩
    exact ⟨M.lat, M.pool, M.count, M.lsz, M.lid, M.ent, rfl, rfl, M.count, rfl, rfl, M.sel, M.me, M.cc⟩

/-- Changes of the fields the abstract machine does not see. -/
theorem Sim.aux {S S' : Perc α} {A : Abs α} (M : Sim env L S A) (h1 : S'.lat = S.lat)
    (h2 : S'.pool = S.pool) (h3 : S'.occupiedCount = S.occupiedCount) (h4 : S'.largestSz = S.largestSz)
    (h5 : S'.largestId = S.largestId) (h6 : S'.entropyValue = S.entropyValue) (h7 : S'.afterWrapping = S.afterWrapping)
    (h8 : S'.wrappingId = S.wrappingId) (h9 : S'.pcOccupied = S.pcOccupied) (h10 : S'.pcBonds = S.pcBonds)
    (h11 : S'.pcSites = S.pcSites) (h12 : S'.selected = S.selected) (h13 : S'.maxEntropy = S.maxEntropy)
    (h14 : S'.clusterCount = S.clusterCount) : Sim env L S' A :=
  ⟨h1.trans M.lat, h2.trans M.pool, h3.trans M.count, h4.trans M.lsz, h5.trans M.lid, h6.trans M.ent, h7.trans M.aw, h8.trans M.wid,
   h9.trans M.pco, h10.trans M.pcb, h11.trans M.pcs, h12.trans M.sel, h13.trans M.me, h14.trans M.cc⟩

theorem record_ok {S S' : Perc α} (h : S.record env = .ok S') : ∃ p, S.orderWrapping env = .ok p ∧ S' = { S with
    occProbList := if S.firstRun then S.occProbList ++ [S.occupationProb env] else S.occProbList
    entropyList := S.entropyList ++ [S.entropy]
    orderWrapList := S.orderWrapList ++ [p]
    orderLargestList := S.orderLargestList ++ [S.orderLargest env] } := by
  simp only [Perc.record] at h
  cases hp : S.orderWrapping env with
  | error e => rw [hp] at h; cases h
  | ok p =>
    rw [hp] at h
    exact ⟨p, rfl, (Except.ok.inj h).symm⟩

theorem record_sim {S S' : Perc α} {A : Abs α} (M : Sim env L S A) (h : S.record env = .ok S') : Sim env L S' A := by
  obtain ⟨p, _, rfl⟩ := record_ok h
  exact M.aux rfl rfl rfl rfl rfl rfl rfl rfl rfl rfl rfl rfl rfl rfl

theorem shuffle_ok {S S' : Perc α} {draws : Nat → Nat} (h : S.shuffle draws = .ok S') :
    ∃ ids rev, S' = { S with siteIds := ids, revIds := rev } := by
  simp only [Perc.shuffle] at h
  split at h
  · exact ⟨S.siteIds, S.revIds, (Except.ok.inj h).symm⟩
  · split at h
    · cases hf : fillReverse (pyShuffle draws S.siteIds) 0 S.revIds with
      | error e => rw [hf] at h; cases h
      | ok rev => rw [hf] at h; exact ⟨_, _, (Except.ok.inj h).symm⟩
    · exact ⟨S.siteIds, S.revIds, (Except.ok.inj h).symm⟩

theorem shuffle_sim {S S' : Perc α} {A : Abs α} {draws : Nat → Nat} (M : Sim env L S A) (h : S.shuffle draws = .ok S') :
    Sim env L S' A := by
  obtain ⟨ids, rev, rfl⟩ := shuffle_ok h
  exact M.aux rfl rfl rfl rfl rfl rfl rfl rfl rfl rfl rfl rfl rfl rfl

theorem resetBase_ok {S S' : Perc α} {V : LV} (hS : S.lat = mkLat L V) {draws : Nat → Nat} (h : S.resetBase draws = .ok S') :
    ∃ ids rev, S' = { S with
      lat := mkLat L LV.init
      pool := mkPool (2 * (L * L)) (PV.init (2 * (L * L)))
      pcBonds := none, pcSites := none, siteIds := ids, revIds := rev
      currentIdx := 0, pcOccupied := 0, afterWrapping := false, wrappingId := -1
      largestSz := 0, largestId := -1, entropyValue := S.maxEntropy, occupiedCount := 0
      selectionFlag := none
      occProbList := if S.firstRun then [] else S.occProbList
      entropyList := [], orderWrapList := [], orderLargestList := [] } := by
  simp only [Perc.resetBase, hS, reset_mk, initClusters_mk] at h
  replace h : (Perc.shuffle _ draws >>= _) = _ := h
  cases hs : Perc.shuffle { S with
      lat := mkLat L LV.init
      pool := mkPool (2 * (L * L)) (PV.init (2 * (L * L)))
      pcBonds := none, pcSites := none } draws with
  | error e => rw [hs] at h; cases h
  | ok S1 =>
    rw [hs] at h
    obtain ⟨ids, rev, rfl⟩ := shuffle_ok hs
    exact ⟨ids, rev, (Except.ok.inj h).symm⟩

theorem reset_sim {S S' : Perc α} {A : Abs α} {draws : Nat → Nat} (M : Sim env L S A) (h : S.reset env v draws = .ok S') :
    Sim env L S' (Abs.init env L A.sel) := by
  simp only [Perc.reset] at h
  cases hb : S.resetBase draws with
  | error e => rw [hb] at h; cases h
  | ok S1 =>
    rw [hb] at h
    obtain ⟨ids, rev, rfl⟩ := resetBase_ok M.lat hb
    cases v <;> (have h := (Except.ok.inj h).symm; subst h) <;>
      exact ⟨rfl, rfl, rfl, rfl, rfl, M.me, rfl, rfl, rfl, rfl, rfl, M.sel, M.me, M.cc⟩

theorem new_sim {S : Perc α} {draws : Nat → Nat} (h : Perc.new env L draws = .ok S) :
    0 < L ∧ S.selected = none ∧ Sim env L S (Abs.init env L none) := by
  simp only [Perc.new, Lattice.new_eq, idealLattice_eq] at h
  replace h : (initClusters (mkLat L (LV.initStage 0)) >>= _) = _ := h
  rw [initClusters_mk] at h
  replace h : (if (mkLat L LV.init).bondCount = 0 then _ else _) = _ := h
  rw [mkLat_bondCount] at h
  by_cases h0 : 2 * (L * L) = 0
  · rw [if_pos h0] at h; cases h
  · rw [if_neg h0] at h
    have hL : 0 < L := by
      rcases Nat.eq_zero_or_pos L with h | h
      · subst h; simp at h0
      · exact h
    refine ⟨hL, ?_⟩
    obtain ⟨ids, rev, rfl⟩ := shuffle_ok h
    exact ⟨rfl, rfl, rfl, rfl, rfl, rfl, rfl, rfl, rfl, rfl, rfl, rfl, rfl, rfl, rfl⟩

theorem setCustomIds_sim {S S' : Perc α} {A : Abs α} {ids : List Int} {b : Bool} {draws : Nat → Nat} (M : Sim env L S A)
    (h : S.setCustomIds ids b draws = .ok S') : Sim env L S' A := by
  simp only [Perc.setCustomIds] at h
  split at h
  · cases h
  · split at h
    · rw [← Except.ok.inj h]; exact M
    · refine shuffle_sim (Sim.aux M ?_ ?_ ?_ ?_ ?_ ?_ ?_ ?_ ?_ ?_ ?_ ?_ ?_ ?_) h <;> rfl

theorem setCustomIndices_sim {S S' : Perc α} {A : Abs α} {ids : List (List Int)} {b : Bool} {draws : Nat → Nat} (M : Sim env L S A)
    (h : S.setCustomIndices ids b draws = .ok S') : Sim env L S' A := by
  simp only [Perc.setCustomIndices] at h
  split at h
  · cases h
  · split at h
    · rw [← Except.ok.inj h]; exact M
    · refine shuffle_sim (Sim.aux M ?_ ?_ ?_ ?_ ?_ ?_ ?_ ?_ ?_ ?_ ?_ ?_ ?_ ?_) h <;> rfl

theorem swapIds_ok {S S' : Perc α} {i j : Nat} (h : S.swapIds i j = .ok S') :
    ∃ ids rev, S' = { S with siteIds := ids, revIds := rev } := by
  simp only [Perc.swapIds] at h
  split at h
  · exact ⟨S.siteIds, S.revIds, (Except.ok.inj h).symm⟩
  · cases h1 : pyGet S.revIds i with
    | error e => rw [h1] at h; cases h
    | ok ix1 =>
      rw [h1] at h
      replace h : (pyGet S.revIds j >>= _) = _ := h
      cases h2 : pyGet S.revIds j with
      | error e => rw [h2] at h; cases h
      | ok ix2 =>
        rw [h2] at h
        replace h : (pyModify S.siteIds ix1 _ >>= _) = _ := h
        cases h3 : pyModify S.siteIds ix1 fun _ => j with
        | error e => rw [h3] at h; cases h
        | ok l1 =>
          rw [h3] at h
          replace h : (pyModify l1 ix2 _ >>= _) = _ := h
          cases h4 : pyModify l1 ix2 fun _ => i with
          | error e => rw [h4] at h; cases h
          | ok l2 =>
            rw [h4] at h
            replace h : (pyModify S.revIds j _ >>= _) = _ := h
            cases h5 : pyModify S.revIds j fun _ => ix1 with
            | error e => rw [h5] at h; cases h
            | ok r1 =>
              rw [h5] at h
              replace h : (pyModify r1 i _ >>= _) = _ := h
              cases h6 : pyModify r1 i fun _ => ix2 with
              | error e => rw [h6] at h; cases h
              | ok r2 =>
                rw [h6] at h
                exact ⟨l2, r2, (Except.ok.inj h).symm⟩

/-! ### Runs -/

theorem runLoop_steps (fuel : Nat) : ∀ {ds : Nat → Draw} {S S' : Perc α} {A : Abs α}, Sim env L S A → AInv L A →
    Perc.runLoop env v fuel ds S = .ok S' → ∃ A', ASteps env L A A' ∧ Sim env L S' A' := by
  induction fuel with
  | zero => intro ds S S' A _ _ h; cases h
  | succ fuel ih =>
    intro ds S S' A M I h
    simp only [Perc.runLoop] at h
    cases hp : S.placeOneSite env v (ds 0) with
    | error e => rw [hp] at h; cases h
    | ok res =>
      obtain ⟨S1, more⟩ := res
      rw [hp] at h
      obtain ⟨A1, hst1, M1⟩ := placeOneSite_steps M I hp
      have I1 := I.steps hst1
      cases more with
      | false =>
        replace h : (Except.ok S1 : Py (Perc α)) = _ := h
        rw [← Except.ok.inj h]
        exact ⟨A1, hst1, M1⟩
      | true =>
        replace h : (if S1.selectionFlag = some .success then _ else _) = _ := h
        split at h
        · cases hd : S1.detectWrapping with
          | error e => rw [hd] at h; cases h
          | ok res =>
            obtain ⟨S2, w⟩ := res
            rw [hd] at h
            obtain ⟨_, _, _, A2, hst2, M2, _⟩ := detectWrapping_steps M1 I1 hd
            replace h : (S2.record env >>= _) = _ := h
            cases hr : S2.record env with
            | error e => rw [hr] at h; cases h
            | ok S3 =>
              rw [hr] at h
              obtain ⟨A', hst', M'⟩ := ih (record_sim M2 hr) (I1.steps hst2) h
              exact ⟨A', (hst1.trans hst2).trans hst', M'⟩
        · obtain ⟨A', hst', M'⟩ := ih M1 I1 h
          exact ⟨A', hst1.trans hst', M'⟩

theorem testRunLoop_steps (fuel : Nat) : ∀ {ds : Nat → Draw} {S S' : Perc α} {A : Abs α}, Sim env L S A → AInv L A →
    Perc.testRunLoop env v fuel ds S = .ok S' → ∃ A', ASteps env L A A' ∧ Sim env L S' A' := by
  induction fuel with
  | zero => intro ds S S' A _ _ h; cases h
  | succ fuel ih =>
    intro ds S S' A M I h
    simp only [Perc.testRunLoop] at h
    cases hp : S.placeOneSite env v (ds 0) with
    | error e => rw [hp] at h; cases h
    | ok res =>
      obtain ⟨S1, more⟩ := res
      rw [hp] at h
      obtain ⟨A1, hst1, M1⟩ := placeOneSite_steps M I hp
      have I1 := I.steps hst1
      cases more with
      | false =>
        replace h : (Except.ok S1 : Py (Perc α)) = _ := h
        rw [← Except.ok.inj h]
        exact ⟨A1, hst1, M1⟩
      | true =>
        replace h : (if S1.selectionFlag = some .success then _ else _) = _ := h
        split at h
        · cases hd : S1.detectWrapping with
          | error e => rw [hd] at h; cases h
          | ok res =>
            obtain ⟨S2, w⟩ := res
            rw [hd] at h
            obtain ⟨_, _, _, A2, hst2, M2, _⟩ := detectWrapping_steps M1 I1 hd
            cases w with
            | true =>
              replace h : (pyAssert _ >>= _) = _ := h
              cases ha : pyAssert (decide (S2.pcOccupied > S2.getSiteCountPc)) with
              | error e => rw [ha] at h; cases h
              | ok u =>
                rw [ha] at h
                replace h : (Except.ok S2 : Py (Perc α)) = _ := h
                rw [← Except.ok.inj h]
                exact ⟨A2, hst1.trans hst2, M2⟩
            | false =>
              replace h : (S2.record env >>= _) = _ := h
              cases hr : S2.record env with
              | error e => rw [hr] at h; cases h
              | ok S3 =>
                rw [hr] at h
                obtain ⟨A', hst', M'⟩ := ih (record_sim M2 hr) (I1.steps hst2) h
                exact ⟨A', (hst1.trans hst2).trans hst', M'⟩
        · obtain ⟨A', hst', M'⟩ := ih M1 I1 h
          exact ⟨A', hst1.trans hst', M'⟩

theorem spLoop_steps (fuel : Nat) : ∀ {S S' : Perc α} {b : Bool} {A : Abs α}, Sim env L S A → AInv L A →
    Perc.spLoop env fuel S = .ok (S', b) → ∃ A', ASteps env L A A' ∧ Sim env L S' A' := by
  induction fuel with
  | zero => intro S S' b A _ _ h; cases h
  | succ fuel ih =>
    intro S S' b A M I h
    simp only [Perc.spLoop] at h
    cases hp : S.placeOneSite env .sp ⟨0, 0⟩ with
    | error e => rw [hp] at h; cases h
    | ok res =>
      obtain ⟨S1, more⟩ := res
      rw [hp] at h
      obtain ⟨A1, hst1, M1⟩ := placeOneSite_steps M I hp
      have I1 := I.steps hst1
      cases more with
      | false =>
        replace h : (Except.ok (S1, false) : Py (Perc α × Bool)) = _ := h
        have := (Prod.mk.inj (Except.ok.inj h)).1
        rw [← this]
        exact ⟨A1, hst1, M1⟩
      | true =>
        replace h : (if S1.selectionFlag = some .success then _ else _) = _ := h
        split at h
        · cases hd : S1.detectWrapping with
          | error e => rw [hd] at h; cases h
          | ok res =>
            obtain ⟨S2, w⟩ := res
            rw [hd] at h
            obtain ⟨_, _, _, A2, hst2, M2, _⟩ := detectWrapping_steps M1 I1 hd
            cases w with
            | true =>
              replace h : (match S2.selected with
                | none => .error .typeError
                | some k => (S2.lat.getSite k >>= fun st =>
                    S2.scanRowCol st.index.c1.toNat st.index.c2.toNat >>= fun fs =>
                    if (fs.1 || fs.2) = true then pure ({ S2 with shortestP := S2.occupationProb env }, true)
                    else Perc.spLoop env fuel S2) : Py (Perc α × Bool)) = .ok (S', b) := h
              split at h
              · cases h
              · rename_i k hsel
                replace h : (S2.lat.getSite k >>= _) = _ := h
                cases hst : S2.lat.getSite k with
                | error e => rw [hst] at h; cases h
                | ok st =>
                  rw [hst] at h
                  replace h : (S2.scanRowCol st.index.c1.toNat st.index.c2.toNat >>= _) = _ := h
                  cases hsc : S2.scanRowCol st.index.c1.toNat st.index.c2.toNat with
                  | error e => rw [hsc] at h; cases h
                  | ok fs =>
                    rw [hsc] at h
                    obtain ⟨f1, f2⟩ := fs
                    replace h : (if (f1 || f2) = true then _ else _) = _ := h
                    split at h
                    · have := (Prod.mk.inj (Except.ok.inj h)).1
                      rw [← this]
                      refine ⟨A2, hst1.trans hst2, Sim.aux M2 ?_ ?_ ?_ ?_ ?_ ?_ ?_ ?_ ?_ ?_ ?_ ?_ ?_ ?_⟩ <;> rfl
                    · obtain ⟨A', hst', M'⟩ := ih M2 (I1.steps hst2) h
                      exact ⟨A', (hst1.trans hst2).trans hst', M'⟩
            | false =>
              obtain ⟨A', hst', M'⟩ := ih M2 (I1.steps hst2) h
              exact ⟨A', (hst1.trans hst2).trans hst', M'⟩
        · obtain ⟨A', hst', M'⟩ := ih M1 I1 h
          exact ⟨A', hst1.trans hst', M'⟩

/-! ### Histories -/

/-- The operation is a reset. -/
def Op.isReset : Op → Bool
  | .reset _ => true
  | _ => false

theorem step_steps {S S' : Perc α} {A : Abs α} {op : Op} (M : Sim env L S A) (I : AInv L A)
    (h : step env v S op = .ok S') :
    (op.isReset = true ∧ Sim env L S' (Abs.init env L A.sel)) ∨
    (op.isReset = false ∧ ∃ A', ASteps env L A A' ∧ Sim env L S' A') := by
  cases op with
  | place d =>
    right; refine ⟨rfl, ?_⟩
    simp only [step] at h
    cases hp : S.placeOneSite env v d with
    | error e => rw [hp] at h; cases h
    | ok res =>
      rw [hp] at h
      replace h : (Except.ok res.1 : Py (Perc α)) = _ := h
      rw [← Except.ok.inj h]
      exact placeOneSite_steps M I hp
  | detect =>
    right; refine ⟨rfl, ?_⟩
    simp only [step] at h
    cases hp : S.detectWrapping with
    | error e => rw [hp] at h; cases h
    | ok res =>
      rw [hp] at h
      replace h : (Except.ok res.1 : Py (Perc α)) = _ := h
      rw [← Except.ok.inj h]
      obtain ⟨_, _, _, A', h1, h2, _⟩ := detectWrapping_steps M I hp
      exact ⟨A', h1, h2⟩
  | reset draws => exact Or.inl ⟨rfl, reset_sim M h⟩
  | shuffle draws => exact Or.inr ⟨rfl, A, .refl, shuffle_sim M h⟩
  | setIds ids b draws => exact Or.inr ⟨rfl, A, .refl, setCustomIds_sim M h⟩
  | setIndices ids b draws => exact Or.inr ⟨rfl, A, .refl, setCustomIndices_sim M h⟩
  | swapIds i j =>
    right; refine ⟨rfl, A, .refl, ?_⟩
    obtain ⟨ids, rev, rfl⟩ := swapIds_ok h
    exact M.aux rfl rfl rfl rfl rfl rfl rfl rfl rfl rfl rfl rfl rfl rfl
  | runOnce fuel ds =>
    right; refine ⟨rfl, ?_⟩
    have key : ∀ v', Perc.runOnce env v' fuel ds S = .ok S' → ∃ A', ASteps env L A A' ∧ Sim env L S' A' := by
      intro v' h
      simp only [Perc.runOnce] at h
      cases hr : Perc.runLoop env v' fuel ds S with
      | error e => rw [hr] at h; cases h
      | ok S1 =>
        rw [hr] at h
        obtain ⟨A', h1, h2⟩ := runLoop_steps fuel M I hr
        rw [← Except.ok.inj h]
        exact ⟨A', h1, h2.aux rfl rfl rfl rfl rfl rfl rfl rfl rfl rfl rfl rfl rfl rfl⟩
    cases v with
    | l0 => exact key _ h
    | l1 => exact key _ h
    | l2 => exact key _ h
    | sp =>
      simp only [step, Perc.runOnceV, Perc.spRunOnce] at h
      cases hr : Perc.spLoop env fuel S with
      | error e => rw [hr] at h; cases h
      | ok res =>
        obtain ⟨S1, b⟩ := res
        rw [hr] at h
        obtain ⟨A', h1, h2⟩ := spLoop_steps fuel M I hr
        replace h : (Except.ok { S1 with firstRun := false } : Py (Perc α)) = _ := h
        rw [← Except.ok.inj h]
        exact ⟨A', h1, h2.aux rfl rfl rfl rfl rfl rfl rfl rfl rfl rfl rfl rfl rfl rfl⟩
  | testRunOnce fuel ds =>
    right; refine ⟨rfl, ?_⟩
    simp only [step, Perc.testRunOnce] at h
    cases hr : Perc.testRunLoop env v fuel ds S with
    | error e => rw [hr] at h; cases h
    | ok S1 =>
      rw [hr] at h
      obtain ⟨A', h1, h2⟩ := testRunLoop_steps fuel M I hr
      rw [← Except.ok.inj h]
      exact ⟨A', h1, h2.aux rfl rfl rfl rfl rfl rfl rfl rfl rfl rfl rfl rfl rfl rfl⟩

/-- Reachable states of the abstract machine. -/
inductive AReach (env : Env α) (L : Nat) : Abs α → Prop
  | init {sel : Option Nat} : (∀ k, sel = some k → k < L * L) → AReach env L (Abs.init env L sel)
  | step {A A' : Abs α} : AReach env L A → AStep env L A A' → AReach env L A'

theorem AReach.steps {A A' : Abs α} (h : AReach env L A) (hs : ASteps env L A A') : AReach env L A' := by
  induction hs with
  | refl => exact h
  | tail _ h ih => exact .step ih h

theorem AReach.inv {A : Abs α} (h : AReach env L A) : AInv L A := by
  induction h with
  | init h => exact AInv.init env L _ h
  | step _ hs ih => exact ih.step hs

end SqPerc
