import Verif.Proof.Rules
/-
One call of L1 and L2 as a move: what is placed and how the pool of candidates and the neighbour counters change.
-/
namespace SqPerc

variable {α : Type} {L : Nat} {env : Env α} {v : Variant} {S S1 S' : Perc α} {A : Abs α} {d : Draw} {b : Bool}

/-- The neighbour counter that decides when a candidate is dropped. -/
def Perc.dropCnt (S : Perc α) : Variant → Nat → Int
  | .l2 => S.cnt2
  | _ => S.cnt1

/-- The same counter of the view. -/
def LV.dropCnt (V : LV) : Variant → Nat → Int
  | .l2 => V.n2
  | _ => V.n1

theorem dropCnt_mk {V : LV} {x : Nat} (hS : S.lat = mkLat L V) (hx : x < L * L) : S.dropCnt v x = V.dropCnt v x := by
  cases v <;> first | exact cnt1_mk hS hx | exact cnt2_mk hS hx

theorem KeepSel.dropCnt (K : KeepSel S S') (x : Nat) : S'.dropCnt v x = S.dropCnt v x := by
  cases v <;> first | exact (K.cnt x).1 | exact (K.cnt x).2

open Classical in
/-- The site placed if candidate `x` and direction `dir` are drawn. -/
noncomputable def aim (L : Nat) (v : Variant) (occ : Nat → Prop) (x : Nat) (dir : Dir) : Option Nat :=
  if ¬ occ x then some x
  else if ¬ occ (nbr L x dir) then some (nbr L x dir)
  else if v = .l2 ∧ ¬ occ (zOf L x (nbr L x dir)) then some (zOf L x (nbr L x dir))
  else none

/-- Effect of a call that draws the candidate `x` and places `t`. -/
structure Moved (L : Nat) (v : Variant) (S S' : Perc α) (x : Nat) (t : Option Nat) : Prop where
  placed : (if S'.selectionFlag = some .success then S'.selected else none) = t
  occ : ∀ s, S'.Occ s ↔ S.Occ s ∨ t = some s
  hit : t ≠ none → S'.pool' = S.pool' ∧ ∀ y < L * L, S'.dropCnt v y = S.dropCnt v y
  miss : t = none → (∀ y < L * L, S'.dropCnt v y = if y = x then dec (S.dropCnt v x) else S.dropCnt v y) ∧
    if dec (S.dropCnt v x) = 0 then S.pool'.Perm (x :: S'.pool') else S'.pool' = S.pool'
  drop : t = none → dec (S.dropCnt v x) = 0 → ∃ i, S.pool'[i]? = some x ∧ S'.pool' = (S.pool'.set i (S.pool'.headD 0)).tail

theorem moved_hit {V1 : LV} {k x : Nat} (M : Sim env L S A) (I : AInv L A) (h : S.placeOneSite env v d = .ok (S', b))
    (e1 : S1.lat = mkLat L V1) (f1 : V1.sg = A.V.sg) (f2 : V1.dropCnt v = A.V.dropCnt v) (e2 : S1.siteIds = S.siteIds)
    (e3 : S1.currentIdx = S.currentIdx) (hk : k < L * L) (hu : ¬ S.Occ k) (hs : S.selectSite v d = S1.finishSelect k) :
    Moved L v S S' x (some k) := by
  have hu' : V1.sg k = -1 := by
    rw [f1]
    rcases I.core.sgr k hk with h | h
    · exact h
    · exact absurd ((occ_iff_sg M hk).2 h.1) hu
  rw [finishSelect_ok e1 hk hu'] at hs
  obtain ⟨S2, p1, p2, K⟩ := placeOneSite_of_select M I hs
  rw [h] at p1
  obtain ⟨rfl, rfl⟩ := Prod.mk.inj (Except.ok.inj p1)
  have hsel : S'.selected = some k := K.selected
  obtain ⟨_, _, k', hk', _, _, hocc, _⟩ := (placeOneSite_occ M I h).resolve_right (fun h => h.1 p2)
  obtain rfl : k = k' := Option.some.inj (hsel.symm.trans hk')
  refine ⟨by rw [if_pos p2, hsel], fun s => ?_, fun _ => ⟨?_, fun y hy => ?_⟩, fun h => (by cases h), fun h => by cases h⟩
  · rw [hocc, Option.some.injEq]; exact or_congr_right eq_comm
  · unfold Perc.pool'; rw [K.siteIds, K.currentIdx]
    show List.drop S1.currentIdx S1.siteIds = _
    rw [e2, e3]
  · rw [K.dropCnt, dropCnt_mk (V := V1) (by exact e1) hy, dropCnt_mk M.lat hy, f2]

theorem moved_miss {V1 : LV} {rnd x : Nat} (M : Sim env L S A) (I : AInv L A) (h : S.placeOneSite env v d = .ok (S', b))
    (hs : S.selectSite v d = .ok (S1, .currentSiteNotEmpty)) (e1 : S1.lat = mkLat L V1)
    (f2 : V1.dropCnt v = upd (A.V.dropCnt v) x (dec (A.V.dropCnt v x)))
    (e2 : S1.siteIds = if dec (A.V.dropCnt v x) = 0 then dropAt S rnd else S.siteIds)
    (e3 : S1.currentIdx = if dec (A.V.dropCnt v x) = 0 then S.currentIdx + 1 else S.currentIdx)
    (hr : S.currentIdx ≤ rnd) (hx : S.siteIds[rnd]? = some x) (hxl : x < L * L) : Moved L v S S' x none := by
  obtain ⟨S2, p1, p2, K⟩ := placeOneSite_of_select M I hs
  rw [h] at p1
  obtain ⟨rfl, rfl⟩ := Prod.mk.inj (Except.ok.inj p1)
  obtain ⟨_, hocc, _, _⟩ := (placeOneSite_occ M I h).resolve_left (fun h => by rw [p2] at h; exact absurd h.1 (by simp))
  have hcx : S.dropCnt v x = A.V.dropCnt v x := dropCnt_mk M.lat hxl
  have hrl := (List.getElem?_eq_some_iff.1 hx).1
  have hcl : S.currentIdx < S.siteIds.length := by omega
  have hcur : S.siteIds[S.currentIdx]? = some S.siteIds[S.currentIdx] := List.getElem?_eq_getElem hcl
  have hw : S.pool'[rnd - S.currentIdx]? = some x := by
    unfold Perc.pool'
    rw [List.getElem?_drop, show S.currentIdx + (rnd - S.currentIdx) = rnd by omega]; exact hx
  have hp' : dec (A.V.dropCnt v x) = 0 → S'.pool' = (S.pool'.set (rnd - S.currentIdx) S.siteIds[S.currentIdx]).tail := by
    intro h0
    rw [if_pos h0] at e2 e3
    unfold Perc.pool'
    rw [K.siteIds, K.currentIdx, e2, e3]
    unfold dropAt
    rw [hcur, Option.getD_some, ← List.tail_drop, List.drop_set, if_neg (by omega)]
  have hhd : S.pool'.headD 0 = S.siteIds[S.currentIdx] := by
    unfold Perc.pool'
    rw [List.headD_eq_head?_getD, List.head?_drop, hcur]; rfl
  refine ⟨by rw [p2, if_neg (by simp)], fun s => ?_, fun h => absurd rfl h, fun _ => ⟨fun y hy => ?_, ?_⟩,
    fun _ h0 => ⟨_, hw, by rw [hhd]; exact hp' (by rw [← hcx]; exact h0)⟩⟩
  · rw [hocc]; simp
  · rw [K.dropCnt, dropCnt_mk e1 hy, f2, dropCnt_mk M.lat hy, hcx]; rfl
  · rw [hcx]
    by_cases h0 : dec (A.V.dropCnt v x) = 0
    · rw [if_pos h0] at e2 e3 ⊢
      rw [hp' h0]
      apply drop_perm _ _ _ _ hw
      unfold Perc.pool'
      rw [List.getElem?_drop]; exact hcur
    · rw [if_neg h0] at e2 e3 ⊢
      unfold Perc.pool'; rw [K.siteIds, K.currentIdx, e2, e3]

/-- A call that draws the candidate `x`. -/
theorem Live.moved (H : Live env v L S) (hv : v = .l1 ∨ v = .l2) (h : S.placeOneSite env v d = .ok (S', b)) {x : Nat} (hx : S.drawn d = some x) :
    Moved L v S S' x (aim L v S.Occ x (dirOf d.b)) := by
  obtain ⟨A, M, hA⟩ := H.sim
  have I := hA.inv
  rw [drawn_eq] at hx
  have hrl := (List.getElem?_eq_some_iff.1 hx).1
  have hcl : S.currentIdx < S.siteIds.length := by omega
  have hc : S.currentIdx < L * L := by rw [← H.len]; exact hcl
  have hxl : x < L * L := H.lt x (List.mem_of_getElem? hx)
  have hy := nbr_lt hxl (dirOf d.b)
  have hz := (siteBeyond_mk (V := A.V) hxl hy).2
  unfold aim
  rw [occ_iff_sg M hxl, occ_iff_sg M hy, occ_iff_sg M hz]
  obtain ⟨Sx, flag, hsel, -⟩ := placeOneSite_select M I h
  rcases hv with rfl | rfl
  · have e := selectL1_eq M.lat d hc hcl rfl hx hxl
    by_cases h0 : 0 ≤ A.V.sg x
    · rw [if_pos h0] at e
      rw [if_neg (not_not_intro h0)]
      by_cases h1 : 0 ≤ A.V.sg (nbr L x (dirOf d.b))
      · rw [if_pos h1] at e
        rw [if_neg (not_not_intro h1), if_neg (by simp)]
        split at e
        · exact absurd (hsel.symm.trans e) (by simp)
        · exact moved_miss (rnd := S.currentIdx + d.a % (S.siteIds.length - S.currentIdx)) M I h e (V1 := { A.V with n1 := upd A.V.n1 x (dec (A.V.n1 x)) })
            rfl rfl rfl rfl (by omega) hx hxl
      · rw [if_neg h1] at e
        rw [if_pos h1]
        exact moved_hit M I h (V1 := A.V) (by exact M.lat) rfl rfl (by exact rfl) (by exact rfl) hy (fun h => h1 ((occ_iff_sg M hy).1 h)) e
    · rw [if_neg h0] at e
      rw [if_pos h0]
      exact moved_hit M I h (V1 := A.V) (by exact M.lat) rfl rfl (by exact rfl) (by exact rfl) hxl (fun h => h0 ((occ_iff_sg M hxl).1 h)) e
  · have e := selectL2_eq M.lat d hc hcl rfl hx hxl
    by_cases h0 : 0 ≤ A.V.sg x
    · rw [if_pos h0] at e
      rw [if_neg (not_not_intro h0)]
      by_cases h1 : 0 ≤ A.V.sg (nbr L x (dirOf d.b))
      · rw [if_pos h1] at e
        rw [if_neg (not_not_intro h1)]
        split at e
        · exact absurd (hsel.symm.trans e) (by simp)
        · by_cases h2 : 0 ≤ A.V.sg (zOf L x (nbr L x (dirOf d.b)))
          · rw [if_pos h2] at e
            rw [if_neg (by simp [h2])]
            split at e
            · exact absurd (hsel.symm.trans e) (by simp)
            · exact moved_miss (rnd := S.currentIdx + d.a % (S.siteIds.length - S.currentIdx)) M I h e
                (V1 := { A.V with n1 := upd A.V.n1 x (dec (A.V.n1 x)), n2 := upd A.V.n2 x (dec (A.V.n2 x)) }) rfl rfl rfl rfl (by omega) hx hxl
          · rw [if_neg h2] at e
            rw [if_pos ⟨rfl, h2⟩]
            exact moved_hit M I h (V1 := { A.V with n1 := upd A.V.n1 x (dec (A.V.n1 x)) }) (by exact rfl) rfl rfl (by exact rfl) (by exact rfl) hz
              (fun h => h2 ((occ_iff_sg M hz).1 h)) e
      · rw [if_neg h1] at e
        rw [if_pos h1]
        exact moved_hit M I h (V1 := A.V) (by exact M.lat) rfl rfl (by exact rfl) (by exact rfl) hy (fun h => h1 ((occ_iff_sg M hy).1 h)) e
    · rw [if_neg h0] at e
      rw [if_pos h0]
      exact moved_hit M I h (V1 := A.V) (by exact M.lat) rfl rfl (by exact rfl) (by exact rfl) hxl (fun h => h0 ((occ_iff_sg M hxl).1 h)) e

/-- A call without candidates. -/
theorem Live.idle (H : Live env v L S) (hv : v = .l1 ∨ v = .l2) (h : S.placeOneSite env v d = .ok (S', b)) (h0 : S.pool' = []) :
    S'.selectionFlag = some .emptySiteList ∧ (∀ s, S'.Occ s ↔ S.Occ s) ∧ S'.pool' = [] ∧ ∀ y < L * L, S'.dropCnt v y = S.dropCnt v y := by
  obtain ⟨A, M, hA⟩ := H.sim
  have I := hA.inv
  have hc : L * L ≤ S.currentIdx := by
    unfold Perc.pool' at h0
    rw [← H.len]; exact List.drop_eq_nil_iff.1 h0
  have hs : S.selectSite v d = .ok (S, .emptySiteList) := by
    rcases hv with rfl | rfl
    · show S.selectL1 d = _
      simp only [Perc.selectL1, M.lat, mkLat_siteCount]
      rw [if_pos (by omega)]
    · show S.selectL2 d = _
      simp only [Perc.selectL2, M.lat, mkLat_siteCount]
      rw [if_pos (by omega)]
  obtain ⟨S2, p1, p2, K⟩ := placeOneSite_of_select M I hs
  rw [h] at p1
  obtain ⟨rfl, rfl⟩ := Prod.mk.inj (Except.ok.inj p1)
  obtain ⟨_, hocc, _, _⟩ := (placeOneSite_occ M I h).resolve_left (fun h => by rw [p2] at h; exact absurd h.1 (by simp))
  refine ⟨p2, hocc, ?_, fun y _ => K.dropCnt y⟩
  unfold Perc.pool' at h0 ⊢
  rw [K.siteIds, K.currentIdx, h0]

end SqPerc
