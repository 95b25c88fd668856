import Verif.Proof.Loose
import Verif.Props.Clusters
import Verif.Props.Wrapping
import Verif.Props.Raised
import Verif.Props.Demo
/-
C104: interference of any kind with the list of site ids.
-/
namespace SqPerc

variable {α : Type} {L : Nat} {env : Env α} {v : Variant} {S S' : Perc α} {e : PyErr}

/-- All that the observers of the clusters, of the order parameters, of the entropy and of wrapping read. -/
structure SameBook (S T : Perc α) : Prop where
  lat : T.lat = S.lat
  pool : T.pool = S.pool
  occupied : T.occupiedCount = S.occupiedCount
  selected : T.selected = S.selected
  largest : T.largestSz = S.largestSz ∧ T.largestId = S.largestId
  entropy : T.entropyValue = S.entropyValue ∧ T.maxEntropy = S.maxEntropy ∧ T.clusterCount = S.clusterCount
  wrapping : T.afterWrapping = S.afterWrapping ∧ T.wrappingId = S.wrappingId ∧ T.pcOccupied = S.pcOccupied ∧ T.pcBonds = S.pcBonds ∧ T.pcSites = S.pcSites
  counters : T.xOccupied = S.xOccupied ∧ T.yOccupied = S.yOccupied ∧ T.seqRecord = S.seqRecord ∧ T.currentIdx = S.currentIdx

/-- C104: whatever others do to the list of site ids between the calls – append to it, remove from it, replace it, in any mode – the object
looks like one with which nobody has interfered: its lattice, clusters, counters, entropy and wrapping data are those of some history of
calls of its class. -/
theorem C104_undisturbed (h : Loose env v L S) : ∃ T, Reach env v L T ∧ SameBook S T := by
  obtain ⟨T, hT⟩ := h.inv.emul
  exact ⟨S.over T, hT, rfl, rfl, rfl, rfl, ⟨rfl, rfl⟩, ⟨rfl, rfl, rfl⟩, ⟨rfl, rfl, rfl, rfl, rfl⟩, ⟨rfl, rfl, rfl, rfl⟩⟩

/-- C104: so the labels are those of the connected components, the counter is the number of occupied sites, and the largest cluster is the
largest component. -/
theorem C104_clusters (h : Loose env v L S) :
    (∀ {s t : Nat}, S.Occ s → S.Occ t → (S.lat.getSiteGid s = S.lat.getSiteGid t ↔ SiteConn L S.Occ s t)) ∧
    S.occupiedCount = occCount L S.Occ ∧
    ((∃ s, S.Occ s) → (∃ X ∈ bondComps L S.Occ, X.card = S.largestCluster) ∧ ∀ X ∈ bondComps L S.Occ, X.card ≤ S.largestCluster) := by
  obtain ⟨T, hT⟩ := h.inv.emul
  have e : (S.over T).Occ = S.Occ := rfl
  have h1 := @C07_same_gid_iff_connected _ _ _ _ _ hT
  have h2 := C11_counter hT
  have h3 := C12_largest_component hT
  rw [e] at h1 h2 h3
  exact ⟨fun hs ht => h1 hs ht, h2, h3⟩

/-- C104: wrapping is only reported when the occupied sites wrap, and the wrapping cluster then does. -/
theorem C104_wrapping (h : Loose env v L S) (ha : S.afterWrapping = true) :
    3 ≤ L ∧ ∃ s, S.Occ s ∧ S.lat.getSiteGid s = .ok S.wrappingId ∧ WrapsAt L S.Occ s := by
  obtain ⟨T, hT⟩ := h.inv.emul
  obtain ⟨_, _, _, _, _, _, _, s, h1, h2, h3⟩ := C20_wrapping_cluster hT ha
  refine ⟨?_, s, h1, h2, h3⟩
  by_contra hL
  obtain ⟨A, M, hA⟩ := h.inv.sim
  have := (hA.wrap.flat (by omega)).2
  rw [M.aw, this] at ha
  cases ha

/-- C104: a placement occupies exactly one new site, or none. -/
theorem C104_place (h : Loose env v L S) {d : Draw} {b : Bool} (hp : S.placeOneSite env v d = .ok (S', b)) :
    (S'.selectionFlag = some .success → ∃ k, S'.selected = some k ∧ k < L * L ∧ ¬ S.Occ k ∧ ∀ s, S'.Occ s ↔ S.Occ s ∨ s = k) ∧
    (S'.selectionFlag ≠ some .success → ∀ s, S'.Occ s ↔ S.Occ s) := by
  obtain ⟨A, M, hA⟩ := h.inv.sim
  constructor
  · intro hf
    rcases placeOneSite_occ M hA.inv hp with ⟨_, _, k, h1, h2, h3, h4, _⟩ | h'
    · exact ⟨k, h1, h2, h3, h4⟩
    · exact absurd hf h'.1
  · intro hf
    rcases placeOneSite_occ M hA.inv hp with h' | h'
    · exact absurd h'.1 hf
    · exact h'.2.1

/-- C104: the exceptions of a placement in the plain classes: IndexError when the list ends before the number of iterations fixed when it was
set, AssertionError when its next entry is occupied; the clusters are not touched. -/
theorem C104_raises_plain (h : Loose env v L S) (hv : v.plain = true) (d : Draw) :
    (S.placeOneSite env v d = .error e ↔ S.currentIdx < S.maxIter ∧
      (e = .indexError ∧ S.siteIds.length ≤ S.currentIdx ∨ e = .assertionError ∧ ∃ k, S.siteIds[S.currentIdx]? = some k ∧ S.Occ k)) := by
  obtain ⟨A, M, hA⟩ := h.inv.sim
  have hps : ∀ {e}, S.selectL0 = .error e → S.placeOneSite env v d = .error e := fun hs => by
    simp only [Perc.placeOneSite]
    rw [selectSite_plain hv, hs]; rfl
  by_cases hi : S.currentIdx < S.maxIter
  · by_cases hl : S.siteIds.length ≤ S.currentIdx
    · have hn : S.siteIds[S.currentIdx]? = none := List.getElem?_eq_none hl
      have hs : S.selectL0 = .error .indexError := by
        simp only [Perc.selectL0, pyGet, hn]
        rw [if_neg (by omega)]
        rfl
      rw [hps hs]
      constructor
      · exact fun he => ⟨hi, .inl ⟨(Except.error.inj he).symm, hl⟩⟩
      · rintro ⟨_, he | ⟨_, k, hk, _⟩⟩
        · rw [he.1]
        · rw [hn] at hk; cases hk
    · obtain ⟨k, hk⟩ : ∃ k, S.siteIds[S.currentIdx]? = some k := ⟨_, List.getElem?_eq_getElem (by omega)⟩
      have hkl := h.inv.ids k (List.mem_of_getElem? hk)
      by_cases ho : S.Occ k
      · have hu : A.V.sg k ≠ -1 := fun h => (not_occ_iff M hA.inv hkl).2 h ho
        have hs : S.selectL0 = .error .assertionError := by
          simp only [Perc.selectL0, pyGet, hk, M.lat]
          rw [if_neg (by omega)]
          show ((mkLat L A.V).getSite k >>= _) = _
          rw [getSite_mk hkl]
          show (pyAssert (decide (A.V.sg k = -1)) >>= _) = _
          rw [show decide (A.V.sg k = -1) = false by simpa using hu]; rfl
        rw [hps hs]
        constructor
        · exact fun he => ⟨hi, .inr ⟨(Except.error.inj he).symm, k, hk, ho⟩⟩
        · rintro ⟨_, he | he⟩
          · exact absurd he.2 hl
          · rw [he.1]
      · have hs := selectL0_ok M.lat hi hk hkl ((not_occ_iff M hA.inv hkl).1 ho)
        rw [← selectSite_plain (v := v) (d := d) hv] at hs
        obtain ⟨S', h1, _⟩ := placeOneSite_of_select M hA.inv hs
        rw [h1]
        constructor
        · intro he; cases he
        · rintro ⟨_, he | ⟨_, k', hk', ho'⟩⟩
          · exact absurd he.2 hl
          · rw [hk] at hk'; cases hk'; exact absurd ho' ho
  · have : S.placeOneSite env v d = .ok ({ S with selectionFlag := some .emptySiteList }, false) := by
      simp only [Perc.placeOneSite]
      rw [selectSite_plain hv, selectL0_end (by omega)]
      rfl
    rw [this]
    constructor
    · intro he; cases he
    · exact fun he => absurd he.1 hi

/-- C104: in L1 and L2 a placement raises exactly when the list is shorter than the position reached; the exception is the ValueError of
`random.randint`. -/
theorem C104_raises_l1l2 (h : Loose env v L S) (hv : v.plain = false) (d : Draw) :
    S.placeOneSite env v d = .error e ↔ e = .valueError ∧ S.currentIdx < L * L ∧ S.siteIds.length ≤ S.currentIdx := by
  obtain ⟨A, M, hA⟩ := h.inv.sim
  obtain ⟨T, hT⟩ := h.inv.emul
  rcases place_l1l2 M hA.inv hv (S := S) hT.cntOk h.inv.ids d with ⟨h1, h2, hp⟩ | ⟨h1, r, hp⟩
  · rw [hp]
    exact ⟨fun he => ⟨(Except.error.inj he).symm, h1, h2⟩, fun he => (by rw [he.1])⟩
  · rw [hp]
    exact ⟨fun he => (by cases he), fun he => absurd he.2 h1⟩

/-- C104: such a placement leaves the lattice, the clusters, the counters and the wrapping data as they were. -/
theorem C104_raised (h : Loose env v L S) {d : Draw} (hp : S.placeOneSite env v d = .error e) :
    Loose env v L (S.placeRaised v) ∧ ∃ s, S.placeRaised v = { S with selected := s } := by
  obtain ⟨A, M, hA⟩ := h.inv.sim
  constructor
  · refine .caught (.place d) h (e := e) ?_ ?_
    · show ((S.placeOneSite env v d).map _) = _
      rw [hp]; rfl
    · rintro rfl
      cases hv : v.plain
      · have := (C104_raises_l1l2 h hv d).1 hp
        cases this.1
      · have := (C104_raises_plain h hv d).1 hp
        rcases this.2 with ⟨he, _⟩ | ⟨he, _⟩ <;> cases he
  · rcases placeRaised_cases M hA.inv hp with h' | ⟨k, _, _, _, _, _, h'⟩
    · exact ⟨S.selected, h'⟩
    · exact ⟨some k, h'⟩

/-- Evaluate a check after construction, some calls, an assignment to the list of site ids, and more calls. -/
def checkLoose (env : Env α) (v : Variant) (L : Nat) (ops : List Op) (l : List Nat) (ops' : List Op) (p : Perc α → Bool) : Bool :=
  match Perc.new env L (fun _ => 0) >>= runOps env v ops >>= fun S => runOps env v ops' { S with siteIds := l } with
  | .ok S => p S
  | .error _ => false

theorem Loose.ops : ∀ {ops : List Op} {S S' : Perc α}, Loose env v L S → runOps env v ops S = .ok S' → Loose env v L S' := by
  intro ops
  induction ops with
  | nil => intro S S' h e; rw [← Except.ok.inj e]; exact h
  | cons op ops ih =>
    intro S S' h e
    simp only [runOps] at e
    cases hs : SqPerc.step env v S op with
    | error x => rw [hs] at e; cases e
    | ok S1 =>
      rw [hs] at e
      exact ih (.step op h hs) e

theorem checkLoose_loose {ops ops' : List Op} {l : List Nat} {p : Perc α → Bool} (hl : ∀ x ∈ l, x < L * L)
    (h : checkLoose env v L ops l ops' p = true) : ∃ S, Loose env v L S ∧ p S = true := by
  unfold checkLoose at h
  cases hn : Perc.new env L (fun _ => 0) with
  | error e => rw [hn] at h; cases h
  | ok S0 =>
    rw [hn] at h
    replace h : (match runOps env v ops S0 >>= fun S => runOps env v ops' { S with siteIds := l } with
      | .ok S => p S | .error _ => false) = true := h
    cases hr : runOps env v ops S0 with
    | error e => rw [hr] at h; cases h
    | ok S1 =>
      rw [hr] at h
      replace h : (match runOps env v ops' { S1 with siteIds := l } with | .ok S => p S | .error _ => false) = true := h
      cases hr' : runOps env v ops' { S1 with siteIds := l } with
      | error e => rw [hr'] at h; cases h
      | ok S => rw [hr'] at h; exact ⟨S, .ops (.write l (.ops (.new hn) hr) hl) hr', h⟩

/-- An object in its own random order whose list is cut to three entries after one placement: two more placements are fine, then the list
ends before the nine iterations are over. -/
example : ∃ S, Loose demoEnv .l0 3 S ∧ (S.occupiedCount = 3 ∧ S.siteIds.length ≤ S.currentIdx ∧ S.currentIdx < S.maxIter) := by
  obtain ⟨S, h, hp⟩ := checkLoose_loose (env := demoEnv) (v := .l0) (L := 3) (ops := [.place0]) (l := [8, 7, 4])
    (ops' := [.place0, .place0]) (p := fun S => decide (S.occupiedCount = 3 ∧ S.siteIds.length ≤ S.currentIdx ∧ S.currentIdx < S.maxIter))
    (by decide) (by decide +kernel)
  exact ⟨S, h, of_decide_eq_true hp⟩

/-- A list of nine entries that all name one site: after one more placement the next entry is occupied. -/
example : ∃ S, Loose demoEnv .l0 3 S ∧ (S.currentIdx < S.maxIter ∧ S.siteIds[S.currentIdx]? = some 4 ∧ S.lat.getSiteGid 4 ≠ .ok (-1)) := by
  obtain ⟨S, h, hp⟩ := checkLoose_loose (env := demoEnv) (v := .l0) (L := 3) (ops := []) (l := [4, 4, 4, 4])
    (ops' := [.place0]) (p := fun S => decide (S.currentIdx < S.maxIter ∧ S.siteIds[S.currentIdx]? = some 4) && !(isOk (S.lat.getSiteGid 4) (-1)))
    (by decide) (by decide +kernel)
  rw [Bool.and_eq_true, Bool.not_eq_true'] at hp
  have := of_decide_eq_true hp.1
  exact ⟨S, h, this.1, this.2, fun he => by rw [isOk_iff.2 he] at hp; cases hp.2⟩

/-- The same in the class L1: the list is emptied. -/
example : ∃ S, Loose demoEnv .l1 3 S ∧ (S.occupiedCount = 1 ∧ S.currentIdx < 3 * 3 ∧ S.siteIds.length ≤ S.currentIdx) := by
  obtain ⟨S, h, hp⟩ := checkLoose_loose (env := demoEnv) (v := .l1) (L := 3) (ops := [.place0]) (l := [])
    (ops' := []) (p := fun S => decide (S.occupiedCount = 1 ∧ S.currentIdx < 3 * 3 ∧ S.siteIds.length ≤ S.currentIdx))
    (by decide) (by decide +kernel)
  exact ⟨S, h, of_decide_eq_true hp⟩

end SqPerc
