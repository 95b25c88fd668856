import Verif.Proof.Wrap
/-
When calls do not raise.
-/
namespace SqPerc

variable {α : Type} {L : Nat} {env : Env α} {v : Variant} {S S1 S' : Perc α} {A : Abs α} {d : Draw}

/-- First neighbour counter of site `x`. -/
def Perc.cnt1 (S : Perc α) (x : Nat) : Int := match S.lat.getSite x with | .ok st => st.nn1 | .error _ => 0

/-- Second neighbour counter of site `x`. -/
def Perc.cnt2 (S : Perc α) (x : Nat) : Int := match S.lat.getSite x with | .ok st => st.nn2 | .error _ => 0

theorem cnt1_mk {V : LV} {x : Nat} (hS : S.lat = mkLat L V) (hx : x < L * L) : S.cnt1 x = V.n1 x := by
  unfold Perc.cnt1; rw [hS, getSite_mk hx]; rfl

theorem cnt2_mk {V : LV} {x : Nat} (hS : S.lat = mkLat L V) (hx : x < L * L) : S.cnt2 x = V.n2 x := by
  unfold Perc.cnt2; rw [hS, getSite_mk hx]; rfl

theorem cnt_congr {S S' : Perc α} {V V' : LV} (hS : S.lat = mkLat L V) (hS' : S'.lat = mkLat L V') (h1 : V'.n1 = V.n1)
    (h2 : V'.n2 = V.n2) (x : Nat) : S'.cnt1 x = S.cnt1 x ∧ S'.cnt2 x = S.cnt2 x := by
  by_cases hx : x < L * L
  · rw [cnt1_mk hS hx, cnt1_mk hS' hx, cnt2_mk hS hx, cnt2_mk hS' hx, h1, h2]; exact ⟨rfl, rfl⟩
  · unfold Perc.cnt1 Perc.cnt2
    rw [hS, hS', getSite_mk_error (by omega), getSite_mk_error (by omega)]; exact ⟨rfl, rfl⟩

/-- What `place_one_site` keeps of the result of `select_site`. -/
structure KeepSel (S S' : Perc α) : Prop where
  siteIds : S'.siteIds = S.siteIds
  currentIdx : S'.currentIdx = S.currentIdx
  seqRecord : S'.seqRecord = S.seqRecord
  xOccupied : S'.xOccupied = S.xOccupied
  yOccupied : S'.yOccupied = S.yOccupied
  shortestP : S'.shortestP = S.shortestP
  selected : S'.selected = S.selected
  cnt : ∀ x, S'.cnt1 x = S.cnt1 x ∧ S'.cnt2 x = S.cnt2 x

/-- After `select_site`, `place_one_site` does not raise. -/
theorem placeOneSite_of_select (M : Sim env L S A) (I : AInv L A) {flag : SelectionState} (hs : S.selectSite v d = .ok (S1, flag)) :
    ∃ S', S.placeOneSite env v d = .ok (S', decide (flag ≠ .emptySiteList)) ∧ S'.selectionFlag = some flag ∧ KeepSel S1 S' := by
  obtain ⟨V1, hV, E, hf⟩ := selectSite_sim M.lat hs
  simp only [Perc.placeOneSite]
  rw [hs]
  cases flag with
  | emptySiteList => exact ⟨_, rfl, rfl, rfl, rfl, rfl, rfl, rfl, rfl, rfl, fun _ => ⟨rfl, rfl⟩⟩
  | currentSiteNotEmpty => exact ⟨_, rfl, rfl, rfl, rfl, rfl, rfl, rfl, rfl, rfl, fun _ => ⟨rfl, rfl⟩⟩
  | success =>
    obtain ⟨_, hc, k, hk, hg, hsel⟩ := hf.resolve_right (fun h => h.1 rfl)
    show ∃ S', (match ({ S1 with selectionFlag := some SelectionState.success } : Perc α).selected with
      | none => .error .typeError
      | some k => do
        let S ← Perc.placeSelected env { S1 with selectionFlag := some SelectionState.success } k
        return (S, true) : Py (Perc α × Bool)) = .ok (S', true) ∧ _
    generalize hS2 : ({ S1 with selectionFlag := some SelectionState.success } : Perc α) = S2
    have hl2 : S2.lat = mkLat L V1 := by rw [← hS2]; exact E.lat
    have hp2 : S2.pool = mkPool (2 * (L * L)) A.P := by rw [← hS2]; exact E.pool.trans M.pool
    have hu1 : V1.sg k = -1 := by rw [hV.1]; exact hg
    have hsel2 : S2.selected = some k := by rw [← hS2]; exact hsel
    rw [hsel2]
    obtain ⟨V', P', r, e, EP, hr⟩ := placeSelected_mk env hl2 hp2 (I.core.same hV) hk hu1
    refine ⟨placedState env L S2 V1 A.P k r V' P', ?_, ?_, ?_⟩
    · show (S2.placeSelected env k >>= _) = _
      rw [e]; rfl
    · show S2.selectionFlag = _
      rw [← hS2]
    · have hc := cnt_congr (S := S2) (S' := placedState env L S2 V1 A.P k r V' P') hl2 rfl EP.n1 EP.n2
      subst hS2
      exact ⟨rfl, rfl, rfl, rfl, rfl, rfl, rfl, hc⟩

/-- `place_one_site` begins with `select_site`. -/
theorem placeOneSite_select {b : Bool} (M : Sim env L S A) (I : AInv L A) (h : S.placeOneSite env v d = .ok (S', b)) :
    ∃ S1 flag, S.selectSite v d = .ok (S1, flag) ∧ b = decide (flag ≠ .emptySiteList) ∧ S'.selectionFlag = some flag ∧ KeepSel S1 S' := by
  cases hs : S.selectSite v d with
  | error e => simp only [Perc.placeOneSite] at h; rw [hs] at h; cases h
  | ok res =>
    obtain ⟨S1, flag⟩ := res
    obtain ⟨S'', h1, h2, h3⟩ := placeOneSite_of_select M I hs
    rw [h1] at h
    injection h with h; injection h with h h'
    subst h
    exact ⟨S1, flag, rfl, h'.symm, h2, h3⟩

/-- `detect_wrapping` does not raise once a site has been selected. -/
theorem detectWrapping_ok (M : Sim env L S A) (I : AInv L A) (hsel : S.selected ≠ none) : ∃ S' w, S.detectWrapping = .ok (S', w) := by
  simp only [Perc.detectWrapping]
  by_cases haw : S.afterWrapping = true
  · rw [if_pos haw]; exact ⟨_, _, rfl⟩
  · rw [if_neg haw]
    rw [M.sel] at hsel ⊢
    cases hk : A.sel with
    | none => exact absurd hk hsel
    | some k =>
      have hkl := I.selLt k hk
      have hw : ∀ n ∈ (Dir.all.map (nbr L k)).filter fun n => decide (A.V.sg n = A.V.sg k), n < L * L := by
        intro n hn
        rw [List.mem_filter] at hn
        obtain ⟨d, _, rfl⟩ := List.mem_map.1 hn.1
        exact nbr_lt hkl d
      obtain ⟨b, e, hb⟩ := wrapScan_mk (L := L) (V := A.V) (A.V.rel k) _ hw
      simp only [M.lat, getSitesForWrappingTest_mk hkl, getSite_mk hkl]
      show ∃ S' w, (Perc.wrapScan (mkLat L A.V) (A.V.rel k) _ >>= _) = _
      rw [e]
      show ∃ S' w, (if b = true then _ else _) = _
      by_cases hbt : b = true
      · rw [if_pos hbt]
        have hk0 : 0 ≤ A.V.sg k := by
          rcases I.selRel k hk with h | h
          · exact h
          · exfalso
            obtain ⟨n, hn, h2⟩ := hb.1 hbt
            rw [h k hkl, h _ (hw n hn)] at h2
            simp [Idx.zero] at h2
        obtain ⟨_, g1⟩ := (I.core.sgr k hkl).resolve_left (by omega)
        have e1 : (mkSite L A.V k).gid = A.V.sg k := rfl
        rw [M.pool, e1, bondCount_mk hk0 g1, siteCount_mk hk0 g1]
        exact ⟨_, _, rfl⟩
      · rw [if_neg hbt]; exact ⟨_, _, rfl⟩

/-- `order_param_wrapping` never raises. -/
theorem orderWrapping_ok (M : Sim env L S A) (hA : AReach env L A) : S.orderWrapping env = .ok
    (if A.aw = true then env.ar.div (env.ar.ofNat (A.P.len A.wid)) (env.ar.ofNat (2 * (L * L))) else env.ar.ofNat 0) := by
  simp only [Perc.orderWrapping]
  rw [M.aw]
  by_cases h : A.aw = true
  · obtain ⟨hg, _⟩ := hA.wid_gids h
    rw [if_pos h, if_pos h, M.wid, M.pool, bondCount_mk (mem_gids.1 hg).1 (mem_gids.1 hg).2, M.lat, mkLat_bondCount]; rfl
  · rw [if_neg h, if_neg h]

theorem record_progress (M : Sim env L S A) (hA : AReach env L A) : ∃ S', S.record env = .ok S' := by
  simp only [Perc.record]
  rw [orderWrapping_ok M hA]
  exact ⟨_, rfl⟩

/-! ### L0 selection -/

theorem selectL0_ok {V : LV} {k : Nat} (hS : S.lat = mkLat L V) (h1 : S.currentIdx < S.maxIter) (h2 : S.siteIds[S.currentIdx]? = some k)
    (hk : k < L * L) (hu : V.sg k = -1) :
    S.selectL0 = .ok ({ S with selected := some k, currentIdx := S.currentIdx + 1, occupiedCount := S.occupiedCount + 1 }, .success) := by
  simp only [Perc.selectL0, pyGet, h2, hS]
  rw [if_neg (by omega)]
  show ((mkLat L V).getSite k >>= _) = _
  rw [getSite_mk hk]
  show (pyAssert (decide (V.sg k = -1)) >>= _) = _
  rw [hu]; rfl

theorem selectL0_end (h1 : S.maxIter ≤ S.currentIdx) : S.selectL0 = .ok (S, .emptySiteList) := by
  simp only [Perc.selectL0]; rw [if_pos h1]

theorem finishSelect_ok {V : LV} {k : Nat} (hS : S.lat = mkLat L V) (hk : k < L * L) (hu : V.sg k = -1) :
    S.finishSelect k = .ok ({ S with selected := some k, occupiedCount := S.occupiedCount + 1 }, .success) := by
  simp only [Perc.finishSelect, hS, getSite_mk hk]
  show (pyAssert (decide (V.sg k = -1)) >>= _) = _
  rw [hu]; rfl

/-! ### Calls that raise -/

/-- The classes that use the plain selection. -/
def Variant.plain : Variant → Bool
  | .l0 | .sp => true
  | .l1 | .l2 => false

/-- What is left of a placement that raises. -/
theorem placeRaised_cases (M : Sim env L S A) (I : AInv L A) {e : PyErr} (h : S.placeOneSite env v d = .error e) :
    S.placeRaised v = S ∨ ∃ k, v.plain = true ∧ S.currentIdx < S.maxIter ∧ S.siteIds[S.currentIdx]? = some k ∧ k < L * L ∧ 0 ≤ A.V.sg k ∧
      S.placeRaised v = { S with selected := some k } := by
  have no : ∀ {r}, S.selectSite v d = .ok r → False := by
    rintro ⟨S1, f⟩ hr
    obtain ⟨S', e', _⟩ := placeOneSite_of_select (env := env) M I hr
    rw [h] at e'; cases e'
  have gen : v.plain = true → S.selectSite v d = S.selectL0 → S.placeRaised v = (match S.siteIds[S.currentIdx]? with
      | some k => (match S.lat.getSite k with
        | .ok _ => { S with selected := some k }
        | .error _ => S)
      | none => S) → S.placeRaised v = S ∨ ∃ k, v.plain = true ∧ S.currentIdx < S.maxIter ∧ S.siteIds[S.currentIdx]? = some k ∧ k < L * L ∧
        0 ≤ A.V.sg k ∧ S.placeRaised v = { S with selected := some k } := by
    intro hv hsel hpr
    rw [hpr]
    cases hk : S.siteIds[S.currentIdx]? with
    | none => exact Or.inl rfl
    | some k =>
      by_cases hkl : k < L * L
      · right
        refine ⟨k, hv, ?_, rfl, hkl, ?_, ?_⟩
        · by_contra hn
          exact no (hsel.trans (selectL0_end (by omega)))
        · by_contra hn
          have hu : A.V.sg k = -1 := (I.core.sgr k hkl).resolve_right (fun h => hn h.1)
          by_cases hi : S.currentIdx < S.maxIter
          · exact no (hsel.trans (selectL0_ok M.lat hi hk hkl hu))
          · exact no (hsel.trans (selectL0_end (by omega)))
        · show (match S.lat.getSite k with
            | .ok _ => { S with selected := some k }
            | .error _ => S) = _
          rw [M.lat, getSite_mk hkl]
      · left
        show (match S.lat.getSite k with
          | .ok _ => { S with selected := some k }
          | .error _ => S) = _
        rw [M.lat, getSite_mk_error (by omega)]
  cases v with
  | l0 => exact gen rfl rfl rfl
  | sp => exact gen rfl rfl rfl
  | l1 => exact Or.inl rfl
  | l2 => exact Or.inl rfl

theorem placeRaised_steps' (M : Sim env L S A) (I : AInv L A) {e : PyErr} (h : S.placeOneSite env v d = .error e) :
    Sim env L (S.placeRaised v) A ∨ ∃ k, k < L * L ∧ 0 ≤ A.V.sg k ∧ Sim env L (S.placeRaised v) { A with sel := some k } := by
  rcases placeRaised_cases M I h with h | ⟨k, _, _, _, hk, h0, h⟩
  · rw [h]; exact Or.inl M
  · rw [h]
    exact Or.inr ⟨k, hk, h0, M.lat, M.pool, M.count, M.lsz, M.lid, M.ent, M.aw, M.wid, M.pco, M.pcb, M.pcs, rfl, M.me, M.cc⟩

theorem placeRaised_steps (M : Sim env L S A) (I : AInv L A) {e : PyErr} (h : S.placeOneSite env v d = .error e) :
    ∃ A', ASteps env L A A' ∧ Sim env L (S.placeRaised v) A' := by
  rcases placeRaised_steps' M I h with h | ⟨k, hk, h0, h⟩
  · exact ⟨A, .refl, h⟩
  · exact ⟨_, .single (.reselect hk h0), h⟩

theorem swapRaised_form (S : Perc α) (i j : Nat) : ∃ ids, S.swapRaised i j = { S with siteIds := ids } := by
  unfold Perc.swapRaised
  split
  · exact ⟨_, rfl⟩
  · exact ⟨S.siteIds, rfl⟩

section
variable (Q : Perc α → Prop)

theorem runRaised_ind (hp : ∀ {S S' : Perc α} {d : Draw} {b : Bool}, Q S → S.placeOneSite env v d = .ok (S', b) → Q S')
    (he : ∀ {S : Perc α} {d : Draw} {e : PyErr}, Q S → S.placeOneSite env v d = .error e → Q (S.placeRaised v))
    (hd : ∀ {S S' : Perc α} {w : Bool}, Q S → S.detectWrapping = .ok (S', w) → Q S')
    (hr : ∀ {S S' : Perc α}, Q S → S.record env = .ok S' → Q S') (fuel : Nat) :
    ∀ {ds : Nat → Draw} {S : Perc α}, Q S → Q (S.runRaised env v fuel ds) := by
  induction fuel with
  | zero => intro ds S q; exact q
  | succ fuel ih =>
    intro ds S q
    rw [Perc.runRaised]
    split
    · next h => exact he q h
    · next h => exact hp q h
    · next h =>
      have q1 := hp q h
      split
      · split
        · exact q1
        · next h2 =>
          have q2 := hd q1 h2
          split
          · exact q2
          · next h3 => exact ih (hr q2 h3)
      · exact ih q1

theorem testRunRaised_ind (hp : ∀ {S S' : Perc α} {d : Draw} {b : Bool}, Q S → S.placeOneSite env v d = .ok (S', b) → Q S')
    (he : ∀ {S : Perc α} {d : Draw} {e : PyErr}, Q S → S.placeOneSite env v d = .error e → Q (S.placeRaised v))
    (hd : ∀ {S S' : Perc α} {w : Bool}, Q S → S.detectWrapping = .ok (S', w) → Q S')
    (hr : ∀ {S S' : Perc α}, Q S → S.record env = .ok S' → Q S') (fuel : Nat) :
    ∀ {ds : Nat → Draw} {S : Perc α}, Q S → Q (S.testRunRaised env v fuel ds) := by
  induction fuel with
  | zero => intro ds S q; exact q
  | succ fuel ih =>
    intro ds S q
    rw [Perc.testRunRaised]
    split
    · next h => exact he q h
    · next h => exact hp q h
    · next h =>
      have q1 := hp q h
      split
      · split
        · exact q1
        · next h2 => exact hd q1 h2
        · next h2 =>
          have q2 := hd q1 h2
          split
          · exact q2
          · next h3 => exact ih (hr q2 h3)
      · exact ih q1

theorem spRaised_ind (hp : ∀ {S S' : Perc α} {d : Draw} {b : Bool}, Q S → S.placeOneSite env .sp d = .ok (S', b) → Q S')
    (he : ∀ {S : Perc α} {d : Draw} {e : PyErr}, Q S → S.placeOneSite env .sp d = .error e → Q (S.placeRaised .sp))
    (hd : ∀ {S S' : Perc α} {w : Bool}, Q S → S.detectWrapping = .ok (S', w) → Q S') (fuel : Nat) :
    ∀ {S : Perc α}, Q S → Q (S.spRaised env fuel) := by
  induction fuel with
  | zero => intro S q; exact q
  | succ fuel ih =>
    intro S q
    rw [Perc.spRaised]
    split
    · next h => exact he q h
    · next h => exact hp q h
    · next h =>
      have q1 := hp q h
      split
      · split
        · exact q1
        · next h2 => exact ih (hd q1 h2)
      · exact ih q1

/-- A property kept by placements, raising or not, by detections and by the bookkeeping of runs is kept by every call that raises, other than
`swap_ids`. -/
theorem stepRaised_ind (hp : ∀ {S S' : Perc α} {d : Draw} {b : Bool}, Q S → S.placeOneSite env v d = .ok (S', b) → Q S')
    (he : ∀ {S : Perc α} {d : Draw} {e : PyErr}, Q S → S.placeOneSite env v d = .error e → Q (S.placeRaised v))
    (hd : ∀ {S S' : Perc α} {w : Bool}, Q S → S.detectWrapping = .ok (S', w) → Q S')
    (hr : ∀ {S S' : Perc α}, Q S → S.record env = .ok S' → Q S')
    {op : Op} (hs : ∀ {S : Perc α} {i j : Nat} {e : PyErr}, op = .swapIds i j → Q S → S.swapIds i j = .error e → Q (S.swapRaised i j))
    {e : PyErr} (q : Q S) (h : step env v S op = .error e) : Q (stepRaised env v S op) := by
  cases op with
  | place d =>
    simp only [step] at h
    cases h1 : S.placeOneSite env v d with
    | error e => exact he q h1
    | ok r => rw [h1] at h; cases h
  | swapIds i j => exact hs rfl q h
  | runOnce fuel ds =>
    cases v with
    | sp => exact spRaised_ind Q hp he hd fuel q
    | l0 => exact runRaised_ind Q hp he hd hr fuel q
    | l1 => exact runRaised_ind Q hp he hd hr fuel q
    | l2 => exact runRaised_ind Q hp he hd hr fuel q
  | testRunOnce fuel ds => exact testRunRaised_ind Q hp he hd hr fuel q
  | detect => exact q
  | reset _ => exact q
  | shuffle _ => exact q
  | setIds _ _ _ => exact q
  | setIndices _ _ _ => exact q

end

theorem stepRaised_steps {op : Op} {e : PyErr} (M : Sim env L S A) (hA : AReach env L A) (h : step env v S op = .error e) :
    ∃ A', ASteps env L A A' ∧ Sim env L (stepRaised env v S op) A' := by
  refine stepRaised_ind (fun T => ∃ A', ASteps env L A A' ∧ Sim env L T A') ?_ ?_ ?_ ?_ ?_ ⟨A, .refl, M⟩ h
  · rintro S S' d b ⟨A', h1, h2⟩ h
    obtain ⟨A2, h3, h4⟩ := placeOneSite_steps h2 (hA.steps h1).inv h
    exact ⟨A2, h1.trans h3, h4⟩
  · rintro S d e ⟨A', h1, h2⟩ h
    obtain ⟨A2, h3, h4⟩ := placeRaised_steps h2 (hA.steps h1).inv h
    exact ⟨A2, h1.trans h3, h4⟩
  · rintro S S' w ⟨A', h1, h2⟩ h
    obtain ⟨_, _, _, A2, h3, h4, _⟩ := detectWrapping_steps h2 (hA.steps h1).inv h
    exact ⟨A2, h1.trans h3, h4⟩
  · rintro S S' ⟨A', h1, h2⟩ h
    exact ⟨A', h1, record_sim h2 h⟩
  · rintro S i j e _ ⟨A', h1, h2⟩ _
    obtain ⟨ids, hi⟩ := swapRaised_form S i j
    rw [hi]
    exact ⟨A', h1, h2.aux rfl rfl rfl rfl rfl rfl rfl rfl rfl rfl rfl rfl rfl rfl⟩

/-- Every history is simulated. -/
theorem Reach.sim {S : Perc α} (h : Reach env v L S) : 0 < L ∧ ∃ A, Sim env L S A ∧ AReach env L A := by
  induction h with
  | new h =>
    obtain ⟨h1, _, h2⟩ := new_sim h
    exact ⟨h1, _, h2, .init (by simp)⟩
  | step op _ hs ih =>
    obtain ⟨hL, A, M, hA⟩ := ih
    refine ⟨hL, ?_⟩
    rcases step_steps M hA.inv hs with ⟨_, h⟩ | ⟨_, A', h1, h2⟩
    · exact ⟨_, h, .init hA.inv.selLt⟩
    · exact ⟨A', h2, hA.steps h1⟩
  | caught op _ he _ ih =>
    obtain ⟨hL, A, M, hA⟩ := ih
    obtain ⟨A', h1, h2⟩ := stepRaised_steps M hA he
    exact ⟨hL, A', h2, hA.steps h1⟩
  | write l _ _ _ _ ih =>
    obtain ⟨hL, A, M, hA⟩ := ih
    exact ⟨hL, A, M.aux rfl rfl rfl rfl rfl rfl rfl rfl rfl rfl rfl rfl rfl rfl, hA⟩

theorem tryOps_steps {ops : List Op} : ∀ {S S' : Perc α} {A : Abs α}, Sim env L S A → AReach env L A → tryOps env v ops S = some S' →
    (∀ op ∈ ops, op.isReset = false) → ∃ A', ASteps env L A A' ∧ Sim env L S' A' := by
  induction ops with
  | nil => intro S S' A M _ e _; rw [← Option.some.inj e]; exact ⟨A, .refl, M⟩
  | cons op ops ih =>
    intro S S' A M hA e hr
    simp only [tryOps] at e
    cases hs : SqPerc.step env v S op with
    | error x =>
      rw [hs] at e
      simp only at e
      split at e
      · cases e
      · obtain ⟨A1, h1, M1⟩ := stepRaised_steps M hA hs
        obtain ⟨A2, h2, M2⟩ := ih M1 (hA.steps h1) e (fun o ho => hr o (by simp [ho]))
        exact ⟨A2, h1.trans h2, M2⟩
    | ok S1 =>
      rw [hs] at e
      rcases step_steps M hA.inv hs with ⟨h, _⟩ | ⟨_, A1, h1, M1⟩
      · rw [hr op (by simp)] at h; cases h
      · obtain ⟨A2, h2, M2⟩ := ih M1 (hA.steps h1) e (fun o ho => hr o (by simp [ho]))
        exact ⟨A2, h1.trans h2, M2⟩

theorem tryOps_reach {ops : List Op} : ∀ {S S' : Perc α}, Reach env v L S → tryOps env v ops S = some S' → Reach env v L S' := by
  induction ops with
  | nil => intro S S' h e; rw [← Option.some.inj e]; exact h
  | cons op ops ih =>
    intro S S' h e
    simp only [tryOps] at e
    cases hs : SqPerc.step env v S op with
    | error x =>
      rw [hs] at e
      simp only at e
      split at e
      · cases e
      · next hx => exact ih (h.caught op hs hx) e
    | ok S1 => rw [hs] at e; exact ih (h.step op hs) e

end SqPerc
