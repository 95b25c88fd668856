import Verif.Proof.Machine
/-
`select_site` of L1 and L2 in terms of the views.
-/
namespace SqPerc

set_option linter.unusedTactic false

variable {α : Type} {L : Nat} {V : LV}

/-- `reduce_*_nn` on the counter. -/
def dec (n : Int) : Int := if n ≤ 0 then n else n - 1

/-- Direction number `b mod 4` in the order right, down, left, up. -/
def dirOf (b : Nat) : Dir := if b % 4 = 0 then .right else if b % 4 = 1 then .down else if b % 4 = 2 then .left else .up

theorem pyGet_nbrs (x b : Nat) : pyGet (Dir.all.map (nbr L x)) (0 + b % (4 - 0)) = .ok (nbr L x (dirOf b)) := by
  have h : b % 4 = 0 ∨ b % 4 = 1 ∨ b % 4 = 2 ∨ b % 4 = 3 := by omega
  have e : 0 + b % (4 - 0) = b % 4 := by omega
  rw [e]
  rcases h with h | h | h | h <;> rw [h] <;> simp only [dirOf, h] <;> rfl

theorem reduceNn1_mk (V : LV) (x : Nat) : (mkSite L V x).reduceNn1 =
    if V.n1 x < 0 then .error .assertionError else .ok (mkSite L { V with n1 := upd V.n1 x (dec (V.n1 x)) } x) := by
  simp only [Site.reduceNn1, dec]
  show (if V.n1 x ≤ 0 then _ else _) = _
  by_cases h : V.n1 x ≤ 0
  · rw [if_pos h]
    by_cases h' : V.n1 x < 0
    · rw [if_pos h']
      show (pyAssert (decide (V.n1 x ≥ 0)) >>= _) = _
      rw [show decide (V.n1 x ≥ 0) = false by simpa using h']; rfl
    · rw [if_neg h', if_pos h]
      show (pyAssert (decide (V.n1 x ≥ 0)) >>= _) = _
      rw [show decide (V.n1 x ≥ 0) = true by simpa using h']
      show Except.ok _ = _
      simp [mkSite]
  · rw [if_neg h, if_neg (by omega), if_neg h]
    show Except.ok _ = _
    simp [mkSite]

theorem reduceNn2_mk (V : LV) (x : Nat) : (mkSite L V x).reduceNn2 =
    if V.n2 x < 0 then .error .assertionError else .ok (mkSite L { V with n2 := upd V.n2 x (dec (V.n2 x)) } x) := by
  simp only [Site.reduceNn2, dec]
  show (if V.n2 x ≤ 0 then _ else _) = _
  by_cases h : V.n2 x ≤ 0
  · rw [if_pos h]
    by_cases h' : V.n2 x < 0
    · rw [if_pos h']
      show (pyAssert (decide (V.n2 x ≥ 0)) >>= _) = _
      rw [show decide (V.n2 x ≥ 0) = false by simpa using h']; rfl
    · rw [if_neg h', if_pos h]
      show (pyAssert (decide (V.n2 x ≥ 0)) >>= _) = _
      rw [show decide (V.n2 x ≥ 0) = true by simpa using h']
      show Except.ok _ = _
      simp [mkSite]
  · rw [if_neg h, if_neg (by omega), if_neg h]
    show Except.ok _ = _
    simp [mkSite]

theorem isOccupied_mk (V : LV) (x : Nat) : (mkSite L V x).isOccupied = decide (0 ≤ V.sg x) := rfl

/-- Replace the site object `x`. -/
theorem replaceSite {x : Nat} (hx : x < L * L) (W : LV) (h2 : ∀ j < L * L, j ≠ x → mkSite L V j = mkSite L W j)
    (h3 : W.bg = V.bg) :
    ∃ sts, (pyModify (mkLat L V).sites x fun _ => mkSite L W x) = .ok sts ∧ { mkLat L V with sites := sts } = mkLat L W := by
  have h := modify_site_mk (V := V) hx (fun _ => mkSite L W x) W rfl h2 h3
  cases hm : pyModify (mkLat L V).sites x fun _ => mkSite L W x with
  | error e => rw [hm] at h; cases h
  | ok sts =>
    rw [hm] at h
    exact ⟨sts, rfl, Except.ok.inj h⟩

/-- `site_ids_indices[rnd] = site_ids_indices[current_idx]`. -/
def dropAt (S : Perc α) (rnd : Nat) : List Nat := S.siteIds.set rnd (S.siteIds[S.currentIdx]?.getD 0)

theorem dropCandidate_eq (S : Perc α) (rnd : Nat) (h1 : S.currentIdx < S.siteIds.length) (h2 : rnd < S.siteIds.length) :
    S.dropCandidate rnd = .ok { S with siteIds := dropAt S rnd, currentIdx := S.currentIdx + 1 } := by
  simp only [Perc.dropCandidate, pyGet, List.getElem?_eq_getElem h1]
  show (pyModify S.siteIds rnd _ >>= _) = _
  simp only [pyModify, List.getElem?_eq_getElem h2, dropAt, List.getElem?_eq_getElem h1]
  rfl

/-! ### L1 -/

/-- State after an unsuccessful L1 selection: the counter of `x` is decremented and `x` is dropped when it reaches zero. -/
def l1Fail (L : Nat) (V : LV) (S : Perc α) (rnd x : Nat) : Perc α :=
  { S with
    xOccupied := S.xOccupied + 1
    lat := mkLat L { V with n1 := upd V.n1 x (dec (V.n1 x)) }
    siteIds := if dec (V.n1 x) = 0 then dropAt S rnd else S.siteIds
    currentIdx := if dec (V.n1 x) = 0 then S.currentIdx + 1 else S.currentIdx }

/-- `selectL1` when a candidate is drawn. -/
theorem selectL1_eq {S : Perc α} (hS : S.lat = mkLat L V) (d : Draw) (h1 : S.currentIdx < L * L)
    (h2 : S.currentIdx < S.siteIds.length) {rnd x : Nat} (hr : rnd = S.currentIdx + d.a % (S.siteIds.length - S.currentIdx))
    (hx : S.siteIds[rnd]? = some x) (hxl : x < L * L) :
    S.selectL1 d =
      if 0 ≤ V.sg x then
        if 0 ≤ V.sg (nbr L x (dirOf d.b)) then
          if V.n1 x < 0 then .error .assertionError
          else .ok (l1Fail L V S rnd x, .currentSiteNotEmpty)
        else
          ({ S with xOccupied := S.xOccupied + 1, seqRecord := S.seqRecord ++ [nbr L x (dirOf d.b)] } : Perc α).finishSelect
            (nbr L x (dirOf d.b))
      else ({ S with seqRecord := S.seqRecord ++ [x] } : Perc α).finishSelect x := by
  have hrl : rnd < S.siteIds.length := (List.getElem?_eq_some_iff.1 hx).1
  simp only [Perc.selectL1, hS, mkLat_siteCount]
  rw [if_neg (by omega), show randint S.currentIdx S.siteIds.length d.a = .ok rnd by
    unfold randint; rw [if_neg (by omega), hr]]
  show (pyGet S.siteIds rnd >>= _) = _
  rw [show pyGet S.siteIds rnd = .ok x by unfold pyGet; rw [hx]]
  show ((mkLat L V).getSite x >>= _) = _
  rw [getSite_mk hxl]
  show (if (mkSite L V x).isOccupied = true then _ else _) = _
  rw [isOccupied_mk]
  by_cases h0 : 0 ≤ V.sg x
  · rw [if_pos (by simpa using h0), if_pos h0, getAllNeighborSites_mk hxl]
    show (pyGet (Dir.all.map (nbr L x)) (0 + d.b % (4 - 0)) >>= _) = _
    rw [pyGet_nbrs]
    show ((mkLat L V).getSite (nbr L x (dirOf d.b)) >>= _) = _
    rw [getSite_mk (nbr_lt hxl _)]
    show (if (mkSite L V (nbr L x (dirOf d.b))).isOccupied = true then _ else _) = _
    rw [isOccupied_mk]
    by_cases h3 : 0 ≤ V.sg (nbr L x (dirOf d.b))
    · rw [if_pos (by simpa using h3), if_pos h3, reduceNn1_mk]
      by_cases h4 : V.n1 x < 0
      · rw [if_pos h4, if_pos h4]; rfl
      · rw [if_neg h4, if_neg h4]
        show (pyModify (mkLat L V).sites x _ >>= _) = _
        obtain ⟨sts, e1, e2⟩ := replaceSite (V := V) hxl { V with n1 := upd V.n1 x (dec (V.n1 x)) }
          (by intro j _ hj; simp [mkSite, upd, hj]) rfl
        rw [e1]
        show (if (mkSite L _ x).isRemovable 1 = true then _ else _) = _
        have hrem : (mkSite L { V with n1 := upd V.n1 x (dec (V.n1 x)) } x).isRemovable 1 = decide (dec (V.n1 x) = 0) := by
          simp [Site.isRemovable, mkSite]
        rw [hrem, e2]
        by_cases h5 : dec (V.n1 x) = 0
        · rw [if_pos (by simpa using h5)]
          rw [dropCandidate_eq _ _ (by exact h2) (by exact hrl)]
          simp only [l1Fail, if_pos h5, dropAt]
          rfl
        · rw [if_neg (by simpa using h5)]
          simp only [l1Fail, if_neg h5]
          rfl
    · rw [if_neg (by simpa using h3), if_neg h3, ← hS]
  · rw [if_neg (by simpa using h0), if_neg h0, ← hS]

/-- A successful `selectL1` call drew a candidate or found the pool exhausted. -/
theorem selectL1_inv {S : Perc α} (hS : S.lat = mkLat L V) {d : Draw} {res : Perc α × SelectionState}
    (h : S.selectL1 d = .ok res) :
    (L * L ≤ S.currentIdx ∧ res = (S, .emptySiteList)) ∨
    (S.currentIdx < L * L ∧ S.currentIdx < S.siteIds.length ∧
      ∃ x, S.siteIds[S.currentIdx + d.a % (S.siteIds.length - S.currentIdx)]? = some x ∧ x < L * L) := by
  simp only [Perc.selectL1, hS, mkLat_siteCount] at h
  by_cases h1 : S.currentIdx ≥ L * L
  · rw [if_pos h1] at h
    exact Or.inl ⟨h1, (Except.ok.inj h).symm⟩
  · rw [if_neg h1] at h
    unfold randint at h
    by_cases h2 : S.siteIds.length ≤ S.currentIdx
    · rw [if_pos h2] at h; cases h
    · rw [if_neg h2] at h
      replace h : (pyGet S.siteIds (S.currentIdx + d.a % (S.siteIds.length - S.currentIdx)) >>= _) = _ := h
      right
      refine ⟨by omega, by omega, ?_⟩
      unfold pyGet at h
      cases hx : S.siteIds[S.currentIdx + d.a % (S.siteIds.length - S.currentIdx)]? with
      | none => rw [hx] at h; cases h
      | some x =>
        refine ⟨x, rfl, ?_⟩
        rw [hx] at h
        replace h : ((mkLat L V).getSite x >>= _) = _ := h
        by_cases hxl : x < L * L
        · exact hxl
        · rw [getSite_mk_error (by omega)] at h; cases h

theorem selectL1_sim {S S' : Perc α} {d : Draw} {flag : SelectionState} (hS : S.lat = mkLat L V)
    (h : S.selectL1 d = .ok (S', flag)) : SelResult L V S S' flag := by
  rcases selectL1_inv hS h with ⟨_, h1⟩ | ⟨h1, h2, x, hx, hxl⟩
  · injection h1 with h1 h2
    subst h1; subst h2
    exact ⟨V, SameV.refl V, ⟨hS, rfl, rfl, rfl, rfl, rfl, rfl, rfl, rfl, rfl, rfl, rfl, rfl, rfl, rfl, rfl, rfl, rfl, rfl, rfl, rfl⟩,
      Or.inr ⟨by simp, rfl, rfl⟩⟩
  · rw [selectL1_eq hS d h1 h2 rfl hx hxl] at h
    split at h
    · split at h
      · split at h
        · cases h
        · injection h with h; injection h with h3 h4
          subst h3; subst h4
          exact ⟨{ V with n1 := upd V.n1 x (dec (V.n1 x)) }, ⟨rfl, rfl, rfl⟩,
            ⟨rfl, rfl, rfl, rfl, rfl, rfl, rfl, rfl, rfl, rfl, rfl, rfl, rfl, rfl, rfl, rfl, rfl, rfl, rfl, rfl, rfl⟩,
            Or.inr ⟨by simp, rfl, rfl⟩⟩
      · obtain ⟨rfl, hk, hg, rfl⟩ := finishSelect_sim (V := V) (by exact hS) h
        exact ⟨V, SameV.refl V, ⟨hS, rfl, rfl, rfl, rfl, rfl, rfl, rfl, rfl, rfl, rfl, rfl, rfl, rfl, rfl, rfl, rfl, rfl, rfl, rfl, rfl⟩,
          Or.inl ⟨rfl, rfl, _, hk, hg, rfl⟩⟩
    · obtain ⟨rfl, hk, hg, rfl⟩ := finishSelect_sim (V := V) (by exact hS) h
      exact ⟨V, SameV.refl V, ⟨hS, rfl, rfl, rfl, rfl, rfl, rfl, rfl, rfl, rfl, rfl, rfl, rfl, rfl, rfl, rfl, rfl, rfl, rfl, rfl, rfl⟩,
        Or.inl ⟨rfl, rfl, _, hk, hg, rfl⟩⟩

/-! ### L2 -/

/-- The site beyond `y` as seen from `x` according to the code. -/
def zOf (L x y : Nat) : Nat :=
  let z := Perc.correctPeriodicity L ((sidx L y).add ((sidx L y).sub (sidx L x)).normalize)
  (z.c1 * L + z.c2).toNat

theorem siteBeyond_mk {x y : Nat} (hx : x < L * L) (hy : y < L * L) :
    Perc.siteBeyond (mkLat L V) x y = .ok (zOf L x y) ∧ zOf L x y < L * L := by
  have hL := pos_of_lt_sq hx
  have hz : zOf L x y < L * L := by
    simp only [zOf, Perc.correctPeriodicity]
    generalize (sidx L y).add ((sidx L y).sub (sidx L x)).normalize = w
    rw [Int.fmod_eq_emod_of_nonneg _ (by omega), Int.fmod_eq_emod_of_nonneg _ (by omega)]
    have a1 := Int.emod_nonneg w.c1 (show (L : Int) ≠ 0 by omega)
    have a2 := Int.emod_lt_of_pos w.c1 (show (0 : Int) < L by omega)
    have b1 := Int.emod_nonneg w.c2 (show (L : Int) ≠ 0 by omega)
    have b2 := Int.emod_lt_of_pos w.c2 (show (0 : Int) < L by omega)
    generalize w.c1 % L = a at *
    generalize w.c2 % L = b at *
    obtain ⟨a, rfl⟩ := Int.eq_ofNat_of_zero_le a1
    obtain ⟨b, rfl⟩ := Int.eq_ofNat_of_zero_le b1
    have := mul_add_lt (L := L) (r := a) (c := b) (by omega) (by omega)
    have e : ((a : Int) * L + b).toNat = a * L + b := by
      rw [← Int.natCast_mul, ← Int.natCast_add, Int.toNat_natCast]
    omega
  refine ⟨?_, hz⟩
  have hnn : 0 ≤ (Perc.correctPeriodicity L ((sidx L y).add ((sidx L y).sub (sidx L x)).normalize)).c1 * L +
      (Perc.correctPeriodicity L ((sidx L y).add ((sidx L y).sub (sidx L x)).normalize)).c2 := by
    simp only [Perc.correctPeriodicity]
    rw [Int.fmod_eq_emod_of_nonneg _ (by omega), Int.fmod_eq_emod_of_nonneg _ (by omega)]
    have a1 := Int.emod_nonneg ((sidx L y).add ((sidx L y).sub (sidx L x)).normalize).c1 (show (L : Int) ≠ 0 by omega)
    have b1 := Int.emod_nonneg ((sidx L y).add ((sidx L y).sub (sidx L x)).normalize).c2 (show (L : Int) ≠ 0 by omega)
    exact Int.add_nonneg (Int.mul_nonneg a1 (by omega)) b1
  simp only [Perc.siteBeyond, getSite_mk hx, getSite_mk hy]
  show ((mkLat L V).getSiteByIndex (Perc.correctPeriodicity L ((sidx L y).add ((sidx L y).sub (sidx L x)).normalize)) >>= _) = _
  have hg : (mkLat L V).getSiteByIndex (Perc.correctPeriodicity L ((sidx L y).add ((sidx L y).sub (sidx L x)).normalize)) =
      .ok (mkSite L V (zOf L x y)) := by
    unfold Lattice.getSiteByIndex pyGetI
    exact (if_pos hnn).trans (getSite_mk hz)
  rw [hg]; rfl

/-- State after an unsuccessful L2 selection. -/
def l2Fail (L : Nat) (V : LV) (S : Perc α) (rnd x : Nat) : Perc α :=
  { S with
    xOccupied := S.xOccupied + 1
    yOccupied := S.yOccupied + 1
    lat := mkLat L { V with n1 := upd V.n1 x (dec (V.n1 x)), n2 := upd V.n2 x (dec (V.n2 x)) }
    siteIds := if dec (V.n2 x) = 0 then dropAt S rnd else S.siteIds
    currentIdx := if dec (V.n2 x) = 0 then S.currentIdx + 1 else S.currentIdx }

/-- `selectL2` when a candidate is drawn. -/
theorem selectL2_eq {S : Perc α} (hS : S.lat = mkLat L V) (d : Draw) (h1 : S.currentIdx < L * L)
    (h2 : S.currentIdx < S.siteIds.length) {rnd x : Nat} (hr : rnd = S.currentIdx + d.a % (S.siteIds.length - S.currentIdx))
    (hx : S.siteIds[rnd]? = some x) (hxl : x < L * L) :
    S.selectL2 d =
      if 0 ≤ V.sg x then
        if 0 ≤ V.sg (nbr L x (dirOf d.b)) then
          if V.n1 x < 0 then .error .assertionError
          else if 0 ≤ V.sg (zOf L x (nbr L x (dirOf d.b))) then
            if V.n2 x < 0 then .error .assertionError
            else .ok (l2Fail L V S rnd x, .currentSiteNotEmpty)
          else ({ S with
            xOccupied := S.xOccupied + 1
            lat := mkLat L { V with n1 := upd V.n1 x (dec (V.n1 x)) } } : Perc α).finishSelect (zOf L x (nbr L x (dirOf d.b)))
        else ({ S with xOccupied := S.xOccupied + 1 } : Perc α).finishSelect (nbr L x (dirOf d.b))
      else S.finishSelect x := by
  have hrl : rnd < S.siteIds.length := (List.getElem?_eq_some_iff.1 hx).1
  simp only [Perc.selectL2, hS, mkLat_siteCount]
  rw [if_neg (by omega), show randint S.currentIdx S.siteIds.length d.a = .ok rnd by
    unfold randint; rw [if_neg (by omega), hr]]
  show (pyGet S.siteIds rnd >>= _) = _
  rw [show pyGet S.siteIds rnd = .ok x by unfold pyGet; rw [hx]]
  show ((mkLat L V).getSite x >>= _) = _
  rw [getSite_mk hxl]
  show (if (mkSite L V x).isOccupied = true then _ else _) = _
  rw [isOccupied_mk]
  by_cases h0 : 0 ≤ V.sg x
  · rw [if_pos (by simpa using h0), if_pos h0, getAllNeighborSites_mk hxl]
    show (pyGet (Dir.all.map (nbr L x)) (0 + d.b % (4 - 0)) >>= _) = _
    rw [pyGet_nbrs]
    show ((mkLat L V).getSite (nbr L x (dirOf d.b)) >>= _) = _
    have hy := nbr_lt hxl (dirOf d.b)
    rw [getSite_mk hy]
    show (if (mkSite L V (nbr L x (dirOf d.b))).isOccupied = true then _ else _) = _
    rw [isOccupied_mk]
    by_cases h3 : 0 ≤ V.sg (nbr L x (dirOf d.b))
    · rw [if_pos (by simpa using h3), if_pos h3, reduceNn1_mk]
      by_cases h4 : V.n1 x < 0
      · rw [if_pos h4, if_pos h4]; rfl
      · rw [if_neg h4, if_neg h4]
        show (pyModify (mkLat L V).sites x _ >>= _) = _
        generalize hW : ({ V with n1 := upd V.n1 x (dec (V.n1 x)) } : LV) = W
        obtain ⟨sts, e1, e2⟩ := replaceSite (V := V) hxl W
          (by intro j _ hj; rw [← hW]; simp [mkSite, upd, hj]) (by rw [← hW])
        have e2s : sts = (mkLat L W).sites := congrArg Lattice.sites e2
        have e2b : (mkLat L V).bonds = (mkLat L W).bonds := by rw [← e2]
        have e2l : (mkLat L V).length = (mkLat L W).length := rfl
        rw [e1]
        show (Perc.siteBeyond { mkLat L V with sites := sts } x _ >>= _) = _
        rw [e2, (siteBeyond_mk hxl hy).1]
        show ((mkLat L W).getSite (zOf L x (nbr L x (dirOf d.b))) >>= _) = _
        rw [getSite_mk (siteBeyond_mk (V := W) hxl hy).2]
        show (if (mkSite L W (zOf L x (nbr L x (dirOf d.b)))).isOccupied = true then _ else _) = _
        rw [isOccupied_mk]
        have hWs : W.sg = V.sg := by rw [← hW]
        have hWn : W.n2 = V.n2 := by rw [← hW]
        rw [hWs]
        by_cases h5 : 0 ≤ V.sg (zOf L x (nbr L x (dirOf d.b)))
        · rw [if_pos (by simpa using h5), if_pos h5, reduceNn2_mk, hWn]
          by_cases h6 : V.n2 x < 0
          · rw [if_pos h6, if_pos h6]; rfl
          · rw [if_neg h6, if_neg h6]
            rw [e2s, e2b, e2l]
            show (pyModify (mkLat L W).sites x _ >>= _) = _
            obtain ⟨sts', e3, e4⟩ := replaceSite (V := W) hxl { W with n2 := upd V.n2 x (dec (V.n2 x)) }
              (by intro j _ hj; simp [mkSite, upd, hj, hWn]) rfl
            rw [e3]
            show (if (mkSite L _ x).isRemovable 2 = true then _ else _) = _
            have hrem : (mkSite L { W with n2 := upd V.n2 x (dec (V.n2 x)) } x).isRemovable 2 = decide (dec (V.n2 x) = 0) := by
              simp [Site.isRemovable, mkSite]
            rw [hrem, e4]
            by_cases h7 : dec (V.n2 x) = 0
            · rw [if_pos (by simpa using h7)]
              rw [dropCandidate_eq _ _ (by exact h2) (by exact hrl)]
              simp only [l2Fail, if_pos h7, dropAt, ← hW]
              rfl
            · rw [if_neg (by simpa using h7)]
              simp only [l2Fail, if_neg h7, ← hW]
              rfl
        · rw [if_neg (by simpa using h5), if_neg h5]
    · rw [if_neg (by simpa using h3), if_neg h3, ← hS]
  · rw [if_neg (by simpa using h0), if_neg h0]

/-- A successful `selectL2` call drew a candidate or found the pool exhausted. -/
theorem selectL2_inv {S : Perc α} (hS : S.lat = mkLat L V) {d : Draw} {res : Perc α × SelectionState}
    (h : S.selectL2 d = .ok res) :
    (L * L ≤ S.currentIdx ∧ res = (S, .emptySiteList)) ∨
    (S.currentIdx < L * L ∧ S.currentIdx < S.siteIds.length ∧
      ∃ x, S.siteIds[S.currentIdx + d.a % (S.siteIds.length - S.currentIdx)]? = some x ∧ x < L * L) := by
  simp only [Perc.selectL2, hS, mkLat_siteCount] at h
  by_cases h1 : S.currentIdx ≥ L * L
  · rw [if_pos h1] at h
    exact Or.inl ⟨h1, (Except.ok.inj h).symm⟩
  · rw [if_neg h1] at h
    unfold randint at h
    by_cases h2 : S.siteIds.length ≤ S.currentIdx
    · rw [if_pos h2] at h; cases h
    · rw [if_neg h2] at h
      replace h : (pyGet S.siteIds (S.currentIdx + d.a % (S.siteIds.length - S.currentIdx)) >>= _) = _ := h
      right
      refine ⟨by omega, by omega, ?_⟩
      unfold pyGet at h
      cases hx : S.siteIds[S.currentIdx + d.a % (S.siteIds.length - S.currentIdx)]? with
      | none => rw [hx] at h; cases h
      | some x =>
        refine ⟨x, rfl, ?_⟩
        rw [hx] at h
        replace h : ((mkLat L V).getSite x >>= _) = _ := h
        by_cases hxl : x < L * L
        · exact hxl
        · rw [getSite_mk_error (by omega)] at h; cases h

theorem selectL2_sim {S S' : Perc α} {d : Draw} {flag : SelectionState} (hS : S.lat = mkLat L V)
    (h : S.selectL2 d = .ok (S', flag)) : SelResult L V S S' flag := by
  rcases selectL2_inv hS h with ⟨_, h1⟩ | ⟨h1, h2, x, hx, hxl⟩
  · injection h1 with h1 h2
    subst h1; subst h2
    exact ⟨V, SameV.refl V, ⟨hS, rfl, rfl, rfl, rfl, rfl, rfl, rfl, rfl, rfl, rfl, rfl, rfl, rfl, rfl, rfl, rfl, rfl, rfl, rfl, rfl⟩,
      Or.inr ⟨by simp, rfl, rfl⟩⟩
  · rw [selectL2_eq hS d h1 h2 rfl hx hxl] at h
    split at h
    · split at h
      · split at h
        · cases h
        · split at h
          · split at h
            · cases h
            · injection h with h; injection h with h3 h4
              subst h3; subst h4
              exact ⟨{ V with n1 := upd V.n1 x (dec (V.n1 x)), n2 := upd V.n2 x (dec (V.n2 x)) }, ⟨rfl, rfl, rfl⟩,
                ⟨rfl, rfl, rfl, rfl, rfl, rfl, rfl, rfl, rfl, rfl, rfl, rfl, rfl, rfl, rfl, rfl, rfl, rfl, rfl, rfl, rfl⟩,
                Or.inr ⟨by simp, rfl, rfl⟩⟩
          · obtain ⟨rfl, hk, hg, rfl⟩ := finishSelect_sim (V := { V with n1 := upd V.n1 x (dec (V.n1 x)) }) rfl h
            exact ⟨{ V with n1 := upd V.n1 x (dec (V.n1 x)) }, ⟨rfl, rfl, rfl⟩,
              ⟨rfl, rfl, rfl, rfl, rfl, rfl, rfl, rfl, rfl, rfl, rfl, rfl, rfl, rfl, rfl, rfl, rfl, rfl, rfl, rfl, rfl⟩,
              Or.inl ⟨rfl, rfl, _, hk, hg, rfl⟩⟩
      · obtain ⟨rfl, hk, hg, rfl⟩ := finishSelect_sim (V := V) (by exact hS) h
        exact ⟨V, SameV.refl V, ⟨hS, rfl, rfl, rfl, rfl, rfl, rfl, rfl, rfl, rfl, rfl, rfl, rfl, rfl, rfl, rfl, rfl, rfl, rfl, rfl, rfl⟩,
          Or.inl ⟨rfl, rfl, _, hk, hg, rfl⟩⟩
    · obtain ⟨rfl, hk, hg, rfl⟩ := finishSelect_sim (V := V) (by exact hS) h
      exact ⟨V, SameV.refl V, ⟨hS, rfl, rfl, rfl, rfl, rfl, rfl, rfl, rfl, rfl, rfl, rfl, rfl, rfl, rfl, rfl, rfl, rfl, rfl, rfl, rfl⟩,
        Or.inl ⟨rfl, rfl, _, hk, hg, rfl⟩⟩

theorem selectSite_sim {v : Variant} {S S' : Perc α} {d : Draw} {flag : SelectionState} (hS : S.lat = mkLat L V)
    (h : S.selectSite v d = .ok (S', flag)) : SelResult L V S S' flag := by
  cases v with
  | l0 => exact selectL0_sim hS h
  | sp => exact selectL0_sim hS h
  | l1 => exact selectL1_sim hS h
  | l2 => exact selectL2_sim hS h

end SqPerc
