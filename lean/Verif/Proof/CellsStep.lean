import Verif.Proof.Cells
/-
The member lists of the clusters as list objects: what one placement does to them.
-/
namespace SqPerc

variable {α : Type} {L : Nat} {env : Env α} {v : Variant} {c c' : Cells}

theorem pool_relabel {S S' : Perc α} {k bb : Nat} (h : S.relabelRelativeIndices k bb = .ok S') : S'.pool = S.pool := by
  simp only [Perc.relabelRelativeIndices] at h
  cases h1 : S.lat.getBond bb with
  | error e => rw [h1] at h; cases h
  | ok bond =>
  rw [h1] at h
  replace h : (S.getNeighborSite k bond.id >>= _) = _ := h
  cases h2 : S.getNeighborSite k bond.id with
  | error e => rw [h2] at h; cases h
  | ok n =>
  rw [h2] at h
  replace h : (S.pool.getSites bond.gid >>= _) = _ := h
  cases h3 : S.pool.getSites bond.gid with
  | error e => rw [h3] at h; cases h
  | ok l =>
  rw [h3] at h
  replace h : (if l.length = 0 then _ else _) = _ := h
  split at h
  · rw [← Except.ok.inj h]
  · cases h4 : S.lat.getSite n with
    | error e => rw [h4] at h; cases h
    | ok ns =>
    rw [h4] at h
    replace h : (SqPerc.getRelativeIndex S.lat k n >>= _) = _ := h
    cases h5 : SqPerc.getRelativeIndex S.lat k n with
    | error e => rw [h5] at h; cases h
    | ok nr =>
    rw [h5] at h
    replace h : (S.lat.getSiteGid k >>= _) = _ := h
    cases h6 : S.lat.getSiteGid k with
    | error e => rw [h6] at h; cases h
    | ok cg =>
    rw [h6] at h
    replace h : (if cg ≥ 0 then _ else _) = _ := h
    split at h
    · cases h7 : Perc.shiftSites (nr.sub ns.rel) l S.lat with
      | error e => rw [h7] at h; cases h
      | ok lat => rw [h7] at h; rw [← Except.ok.inj h]
    · rw [← Except.ok.inj h]

theorem Extends.pos {i : Nat} (h : Extends i c c') (g : Int) : c'.pos g = c.pos g := by rw [Cells.pos_eq, Cells.pos_eq, h.refs]

theorem assignLoopC_effect {k : Nat} {root : Int} (bs : List Nat) : ∀ {S S' : Perc α} {c c' : Cells}, Stored c S.pool →
    Perc.assignLoopC k root bs (S, c) = .ok (S', c') → Stored c' S'.pool ∧ Extends (c.pos root) c c' := by
  induction bs with
  | nil => intro S S' c c' H h; cases h; exact ⟨H, Extends.refl _ _⟩
  | cons b bs ih =>
    intro S S' c c' H h
    simp only [Perc.assignLoopC] at h
    cases h1 : S.lat.getBondGid b with
    | error e => rw [h1] at h; cases h
    | ok g =>
    rw [h1] at h
    replace h : (if g = root then _ else _) = _ := h
    split at h
    · cases h2 : S.lat.setSiteGid k root with
      | error e => rw [h2] at h; cases h
      | ok lat =>
      rw [h2] at h
      replace h : (S.pool.addSite root k >>= _) = _ := h
      cases h3 : S.pool.addSite root k with
      | error e => rw [h3] at h; cases h
      | ok pool =>
      rw [h3] at h
      obtain ⟨H1, G1⟩ := H.addSite h3
      replace h : (Perc.getNeighborSite { S with lat := lat, pool := pool } k b >>= _) = _ := h
      cases h4 : Perc.getNeighborSite { S with lat := lat, pool := pool } k b with
      | error e => rw [h4] at h; cases h
      | ok n =>
      rw [h4] at h
      replace h : (lat.getSiteGid n >>= _) = _ := h
      cases h5 : lat.getSiteGid n with
      | error e => rw [h5] at h; cases h
      | ok ng =>
      rw [h5] at h
      replace h : (if ng ≥ 0 then _ else _) = _ := h
      split at h
      · cases h6 : SqPerc.getRelativeIndex lat n k with
        | error e => rw [h6] at h; cases h
        | ok r =>
        rw [h6] at h
        replace h : (lat.setRelativeIndex k r >>= _) = _ := h
        cases h7 : lat.setRelativeIndex k r with
        | error e => rw [h7] at h; cases h
        | ok lat' =>
        rw [h7] at h
        obtain ⟨H2, G2⟩ := ih (S := { S with lat := lat', pool := pool }) H1 h
        exact ⟨H2, G1.trans (by rw [G1.pos] at G2; exact G2)⟩
      · obtain ⟨H2, G2⟩ := ih (S := { S with lat := lat, pool := pool }) H1 h
        exact ⟨H2, G1.trans (by rw [G1.pos] at G2; exact G2)⟩
    · exact ih H h

theorem mergeLoopC_effect {k : Nat} {root : Int} (bs : List Nat) : ∀ {S S' : Perc α} {c c' : Cells}, Stored c S.pool →
    Perc.mergeLoopC k root bs (S, c) = .ok (S', c') → Stored c' S'.pool ∧ Extends (c.pos root) c c' := by
  induction bs with
  | nil => intro S S' c c' H h; cases h; exact ⟨H, Extends.refl _ _⟩
  | cons b bs ih =>
    intro S S' c c' H h
    simp only [Perc.mergeLoopC] at h
    cases h1 : S.lat.getBondGid b with
    | error e => rw [h1] at h; cases h
    | ok g =>
    rw [h1] at h
    replace h : (if g = root then _ else _) = _ := h
    split at h
    · exact ih H h
    · cases h2 : S.relabelRelativeIndices k b with
      | error e => rw [h2] at h; cases h
      | ok S1 =>
      rw [h2] at h
      replace h : (S1.pool.mergeClusterWith root g S1.lat >>= _) = _ := h
      cases h3 : S1.pool.mergeClusterWith root g S1.lat with
      | error e => rw [h3] at h; cases h
      | ok r =>
      obtain ⟨pool, lat⟩ := r
      rw [h3] at h
      obtain ⟨H1, G1⟩ := Stored.merge (p := S1.pool) (by rw [pool_relabel h2]; exact H) h3
      obtain ⟨H2, G2⟩ := ih (S := { S1 with lat := lat, pool := pool }) H1 h
      exact ⟨H2, G1.trans (by rw [G1.pos] at G2; exact G2)⟩

theorem Drop.pos {X : Nat → Prop} (h : Drop X c c') (g : Int) : c'.pos g = c.pos g := by rw [Cells.pos_eq, Cells.pos_eq, h.refs]

theorem clearLoopC_effect {root : Int} (gs : List Int) : ∀ {p p' : ClusterPool} {c c' : Cells}, Stored c p →
    Perc.clearLoopC root gs (p, c) = .ok (p', c') → Stored c' p' ∧ Drop (fun i => ∃ g ∈ gs, g ≠ root ∧ i = c.pos g) c c' := by
  induction gs with
  | nil => intro p p' c c' H h; cases h; exact ⟨H, Drop.refl _ _⟩
  | cons g gs ih =>
    intro p p' c c' H h
    simp only [Perc.clearLoopC] at h
    split at h
    · obtain ⟨H2, D2⟩ := ih H h
      exact ⟨H2, D2.mono fun i ⟨x, hx, h1, h2⟩ => ⟨x, List.mem_cons_of_mem _ hx, h1, h2⟩⟩
    · rename_i hg
      cases h3 : p.clearCluster g with
      | error e => rw [h3] at h; cases h
      | ok p1 =>
      rw [h3] at h
      obtain ⟨H1, D1⟩ := Stored.clear H h3
      obtain ⟨H2, D2⟩ := ih H1 h
      refine ⟨H2, (D1.mono fun i hi => ⟨g, List.mem_cons_self, hg, hi⟩).trans (D2.mono fun i ⟨x, hx, h1, h2⟩ => ?_)⟩
      exact ⟨x, List.mem_cons_of_mem _ hx, h1, by rw [h2, D1.pos]⟩

theorem chooseRoot_mem {pool : ClusterPool} {wrap : Bool} {wid : Int} {r : Int} (gs : List Int) : ∀ {root : Int} {ref : Nat},
    Perc.chooseRoot pool wrap wid gs root ref = .ok r → r = root ∨ r ∈ gs ∨ (wrap = true ∧ r = wid) := by
  induction gs with
  | nil => intro root ref h; exact Or.inl (Except.ok.inj h).symm
  | cons g gs ih =>
    intro root ref h
    simp only [Perc.chooseRoot] at h
    split at h
    · exact Or.inr (Or.inr ⟨‹_›, (Except.ok.inj h).symm⟩)
    · cases h1 : pool.bondCount g with
      | error e => rw [h1] at h; cases h
      | ok sz =>
      rw [h1] at h
      replace h : (if sz ≥ ref then _ else _) = _ := h
      split at h
      · rcases ih h with h | h | h
        · exact Or.inr (Or.inl (by rw [h]; exact List.mem_cons_self))
        · exact Or.inr (Or.inl (List.mem_cons_of_mem _ h))
        · exact Or.inr (Or.inr h)
      · rcases ih h with h | h | h
        · exact Or.inl h
        · exact Or.inr (Or.inl (List.mem_cons_of_mem _ h))
        · exact Or.inr (Or.inr h)

/-- Every bond has a valid gid. -/
def GidsOk (n : Nat) (lat : Lattice) : Prop := ∀ b ∈ lat.bonds, 0 ≤ b.gid ∧ b.gid < (n : Int)

theorem getBondGids_mem {S : Perc α} {n : Nat} {gids : List Int} (hg : GidsOk n S.lat) (ub : List Nat)
    (h : Perc.getBondGids env S ub = .ok gids) : ∀ g ∈ gids, 0 ≤ g ∧ g < (n : Int) := by
  have aux : ∀ (ub : List Nat) {l : List Int}, ub.mapM S.lat.getBondGid = .ok l → ∀ g ∈ l, 0 ≤ g ∧ g < (n : Int) := by
    intro ub
    induction ub with
    | nil => intro l h; cases h; intro g hg; cases hg
    | cons b bs ih =>
      intro l h
      rw [List.mapM_cons] at h
      cases h1 : S.lat.getBondGid b with
      | error e => rw [h1] at h; cases h
      | ok x =>
      rw [h1] at h
      replace h : (bs.mapM S.lat.getBondGid >>= _) = _ := h
      cases h2 : bs.mapM S.lat.getBondGid with
      | error e => rw [h2] at h; cases h
      | ok xs =>
      rw [h2] at h
      cases h
      intro g hgm
      rcases List.mem_cons.1 hgm with rfl | hgm
      · simp only [Lattice.getBondGid, Lattice.getBond] at h1
        unfold pyGet at h1
        split at h1
        · rename_i b' hb
          cases h1
          exact hg b' (List.mem_of_getElem? hb)
        · cases h1
      · exact ih h2 g hgm
  simp only [Perc.getBondGids] at h
  cases h1 : ub.mapM S.lat.getBondGid with
  | error e => rw [h1] at h; cases h
  | ok l =>
  rw [h1] at h
  cases h
  intro g hgm
  exact aux ub h1 g ((env.set.iter_mem _ _).1 hgm)

/-- The effect of a placement: the lists of the cluster at position `i` are extended, and the clusters at some other positions get new
empty lists. -/
def Placed (S : Perc α) (c c' : Cells) : Prop :=
  c' = c ∨ ∃ i c1, i < c.refs.length ∧ Extends i c c1 ∧ Drop (fun j => j ≠ i ∧ (S.afterWrapping = true → 0 ≤ S.wrappingId → j ≠ S.wrappingId.toNat)) c1 c'

theorem Placed.refl (S : Perc α) (c : Cells) : Placed S c c := Or.inl rfl

theorem mergeClustersV2C_effect {S S' : Perc α} {k : Nat} {bs : List Nat} {r : Int} (H : Stored c S.pool) (hg : GidsOk c.refs.length S.lat)
    (h : S.mergeClustersV2C env c k bs = .ok (S', c', r)) : Stored c' S'.pool ∧ Placed S c c' := by
  simp only [Perc.mergeClustersV2C] at h
  cases h1 : Perc.uniqueBondLoop S.lat bs [] with
  | error e => rw [h1] at h; cases h
  | ok ub =>
  rw [h1] at h
  replace h : (Perc.getBondGids env S ub >>= _) = _ := h
  cases h2 : Perc.getBondGids env S ub with
  | error e => rw [h2] at h; cases h
  | ok gids =>
  rw [h2] at h
  replace h : (pyGet gids 0 >>= _) = _ := h
  cases h3 : pyGet gids 0 with
  | error e => rw [h3] at h; cases h
  | ok root0 =>
  rw [h3] at h
  replace h : (Perc.chooseRoot S.pool (S.afterWrapping && decide (S.wrappingId ∈ gids)) S.wrappingId gids root0 0 >>= _) = _ := h
  cases h4 : Perc.chooseRoot S.pool (S.afterWrapping && decide (S.wrappingId ∈ gids)) S.wrappingId gids root0 0 with
  | error e => rw [h4] at h; cases h
  | ok root =>
  rw [h4] at h
  replace h : (Perc.assignLoopC k root ub (S, c) >>= _) = _ := h
  cases h5 : Perc.assignLoopC k root ub (S, c) with
  | error e => rw [h5] at h; cases h
  | ok w1 =>
  obtain ⟨S1, c1⟩ := w1
  rw [h5] at h
  replace h : (Perc.mergeLoopC k root ub (S1, c1) >>= _) = _ := h
  cases h6 : Perc.mergeLoopC k root ub (S1, c1) with
  | error e => rw [h6] at h; cases h
  | ok w2 =>
  obtain ⟨S2, c2⟩ := w2
  rw [h6] at h
  replace h : (Perc.clearLoopC root gids (S2.pool, c2) >>= _) = _ := h
  cases h7 : Perc.clearLoopC root gids (S2.pool, c2) with
  | error e => rw [h7] at h; cases h
  | ok w3 =>
  obtain ⟨p3, c3⟩ := w3
  rw [h7] at h
  cases h
  obtain ⟨H1, G1⟩ := assignLoopC_effect ub H h5
  obtain ⟨H2, G2⟩ := mergeLoopC_effect ub H1 h6
  obtain ⟨H3, D3⟩ := clearLoopC_effect gids H2 h7
  have G := G1.trans (by rw [G1.pos] at G2; exact G2)
  have hmem := getBondGids_mem hg ub h2
  have h0 : root0 ∈ gids := by
    unfold pyGet at h3
    split at h3
    · cases h3; exact List.mem_of_getElem? ‹_›
    · cases h3
  have hr : r ∈ gids := by
    rcases chooseRoot_mem gids h4 with h | h | ⟨h, h'⟩
    · rw [h]; exact h0
    · exact h
    · rw [h']
      simp only [Bool.and_eq_true, decide_eq_true_eq] at h
      exact h.2
  refine ⟨H3, Or.inr ⟨c.pos r, c2, ?_, G, D3.mono fun j hj => ?_⟩⟩
  · obtain ⟨r0, r1⟩ := hmem r hr
    simp only [Cells.pos, if_pos r0]; omega
  obtain ⟨g, hgm, hne, rfl⟩ := hj
  rw [G.pos]
  obtain ⟨g0, _⟩ := hmem g hgm
  obtain ⟨r0, _⟩ := hmem r hr
  refine ⟨fun e => hne ?_, fun haw hw e => hne ?_⟩
  · simp only [Cells.pos, if_pos g0, if_pos r0] at e; omega
  · simp only [Cells.pos, if_pos g0] at e
    have e2 : g = S.wrappingId := by omega
    have hwm : S.wrappingId ∈ gids := e2 ▸ hgm
    have hb : (S.afterWrapping && decide (S.wrappingId ∈ gids)) = true := by simp [haw, hwm]
    rw [hb] at h4
    cases gids with
    | nil => cases hwm
    | cons a l =>
      rw [chooseRoot_wrap] at h4
      rw [e2, Except.ok.inj h4]

theorem placeSelectedC_effect {S S' : Perc α} {k : Nat} (H : Stored c S.pool) (hg : GidsOk c.refs.length S.lat)
    (h : S.placeSelectedC env c k = .ok (S', c')) : Stored c' S'.pool ∧ Placed S c c' := by
  simp only [Perc.placeSelectedC] at h
  cases h1 : S.lat.initRelativeIndex k with
  | error e => rw [h1] at h; cases h
  | ok lat =>
  rw [h1] at h
  have hlat : lat.bonds = S.lat.bonds := by
    simp only [Lattice.initRelativeIndex] at h1
    cases h2 : pyModify S.lat.sites k Site.initRel with
    | error e => rw [h2] at h1; cases h1
    | ok l => rw [h2] at h1; rw [← Except.ok.inj h1]
  replace h : (lat.getNeighborBonds k >>= _) = _ := h
  cases h2 : lat.getNeighborBonds k with
  | error e => rw [h2] at h; cases h
  | ok bonds =>
  rw [h2] at h
  replace h : (Perc.entropySubtract env { S with lat := lat } k >>= _) = _ := h
  cases h3 : Perc.entropySubtract env { S with lat := lat } k with
  | error e => rw [h3] at h; cases h
  | ok S1 =>
  rw [h3] at h
  have hS1 : ∃ x, S1 = { S with lat := lat, entropyValue := x } := by
    simp only [Perc.entropySubtract] at h3
    rw [h2] at h3
    replace h3 : (Perc.entropyGids { S with lat := lat } bonds >>= _) = _ := h3
    cases h4 : Perc.entropyGids { S with lat := lat } bonds with
    | error e => rw [h4] at h3; cases h3
    | ok gids =>
    rw [h4] at h3
    replace h3 : (Perc.entropyLoop env { S with lat := lat } (env.set.iter gids) (env.ar.ofNat 0) >>= _) = _ := h3
    cases h5 : Perc.entropyLoop env { S with lat := lat } (env.set.iter gids) (env.ar.ofNat 0) with
    | error e => rw [h5] at h3; cases h3
    | ok x => rw [h5] at h3; exact ⟨_, (Except.ok.inj h3).symm⟩
  obtain ⟨x, rfl⟩ := hS1
  replace h : (Perc.mergeClustersV2C env { S with lat := lat, entropyValue := x } c k bonds >>= _) = _ := h
  cases h4 : Perc.mergeClustersV2C env { S with lat := lat, entropyValue := x } c k bonds with
  | error e => rw [h4] at h; cases h
  | ok r =>
  obtain ⟨S2, c2, g⟩ := r
  rw [h4] at h
  obtain ⟨H2, P2⟩ := mergeClustersV2C_effect (S := { S with lat := lat, entropyValue := x }) H
    (by unfold GidsOk; rw [hlat]; exact hg) h4
  replace h : (S2.trackLargest g >>= _) = _ := h
  cases h5 : S2.trackLargest g with
  | error e => rw [h5] at h; cases h
  | ok S3 =>
  rw [h5] at h
  have e3 : S3.pool = S2.pool := by
    simp only [Perc.trackLargest] at h5
    cases h6 : S2.pool.bondCount g with
    | error e => rw [h6] at h5; cases h5
    | ok sz =>
      rw [h6] at h5
      rw [← Except.ok.inj h5]
      split <;> rfl
  replace h : (S3.entropyAdd env g >>= _) = _ := h
  cases h6 : S3.entropyAdd env g with
  | error e => rw [h6] at h; cases h
  | ok S4 =>
  rw [h6] at h
  have e4 : S4.pool = S3.pool := by
    simp only [Perc.entropyAdd] at h6
    cases h7 : S3.pool.bondCount g with
    | error e => rw [h7] at h6; cases h6
    | ok bc =>
      rw [h7] at h6
      replace h6 : (if bc = 0 then _ else _) = _ := h6
      split at h6
      · cases h6
      · rw [← Except.ok.inj h6]
  cases h
  exact ⟨by rw [e4, e3]; exact H2, P2⟩

theorem gidsOk {S : Perc α} {V : LV} {P : PV} (hS : S.lat = mkLat L V) (C : Core L V P) : GidsOk (2 * (L * L)) S.lat := by
  intro b hb
  rw [hS] at hb
  obtain ⟨i, hi, rfl⟩ := List.mem_map.1 hb
  exact C.bgr i (List.mem_range.1 hi)

/-- One call of `place_one_site`. -/
theorem placeOneSiteC_effect {S S' : Perc α} {A : Abs α} {d : Draw} {b : Bool} (M : Sim env L S A) (I : AInv L A) (H : Stored c S.pool)
    (h : S.placeOneSiteC env v c d = .ok (S', c', b)) : Stored c' S'.pool ∧ Placed S c c' := by
  have hlen : c.refs.length = 2 * (L * L) := by rw [H.len, M.pool]; simp [mkPool]
  simp only [Perc.placeOneSiteC] at h
  cases hs : S.selectSite v d with
  | error e => rw [hs] at h; cases h
  | ok res =>
    obtain ⟨S1, flag⟩ := res
    rw [hs] at h
    obtain ⟨V1, hV, E, hf⟩ := selectSite_sim M.lat hs
    cases flag with
    | emptySiteList =>
      cases h
      exact ⟨by show Stored c S1.pool; rw [E.pool]; exact H, Placed.refl _ _⟩
    | currentSiteNotEmpty =>
      cases h
      exact ⟨by show Stored c S1.pool; rw [E.pool]; exact H, Placed.refl _ _⟩
    | success =>
      obtain ⟨_, hc, k, hk, hg, hsel⟩ := hf.resolve_right (fun h => h.1 rfl)
      replace h : (match ({ S1 with selectionFlag := some SelectionState.success } : Perc α).selected with
        | none => .error .typeError
        | some k => do
          let w ← Perc.placeSelectedC env { S1 with selectionFlag := some SelectionState.success } c k
          return (w.1, w.2, true) : Py (Perc α × Cells × Bool)) = .ok (S', c', b) := h
      generalize hS2 : ({ S1 with selectionFlag := some SelectionState.success } : Perc α) = T at h
      have hT : T.pool = S.pool ∧ T.lat = S1.lat ∧ T.afterWrapping = S.afterWrapping ∧ T.wrappingId = S.wrappingId ∧ T.selected = some k := by
        rw [← hS2]; exact ⟨E.pool, rfl, E.aw, E.wid, hsel⟩
      obtain ⟨t1, t2, t3, t4, t5⟩ := hT
      rw [t5] at h
      replace h : (T.placeSelectedC env c k >>= _) = _ := h
      cases h2 : T.placeSelectedC env c k with
      | error e => rw [h2] at h; cases h
      | ok w =>
      obtain ⟨S2, c2⟩ := w
      rw [h2] at h
      cases h
      obtain ⟨H2, P2⟩ := placeSelectedC_effect (S := T) (by rw [t1]; exact H)
        (by rw [hlen]; exact gidsOk (S := T) (t2.trans E.lat) (I.core.same hV)) h2
      refine ⟨H2, ?_⟩
      rcases P2 with e | ⟨i, c1, hi, G, D⟩
      · exact Or.inl e
      refine Or.inr ⟨i, c1, hi, G, D.mono fun j hj => ⟨hj.1, ?_⟩⟩
      have := hj.2
      simp only [t3, t4] at this
      exact this

end SqPerc
