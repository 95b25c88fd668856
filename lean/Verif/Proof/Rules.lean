import Verif.Proof.Custom
/-
The selection rules of L1 and L2.
-/
namespace SqPerc

variable {α : Type} {L : Nat} {env : Env α} {v : Variant} {S S1 S' : Perc α} {A : Abs α} {d : Draw} {b : Bool}

/-- The candidate drawn by `select_site` of L1 and L2: a member of `site_ids_indices[current_idx:]`. -/
def Perc.drawn (S : Perc α) (d : Draw) : Option Nat := (S.siteIds.drop S.currentIdx)[d.a % (S.siteIds.length - S.currentIdx)]?

theorem drawn_eq (S : Perc α) (d : Draw) : S.drawn d = S.siteIds[S.currentIdx + d.a % (S.siteIds.length - S.currentIdx)]? := by
  unfold Perc.drawn; rw [List.getElem?_drop]

theorem occ_iff_sg (M : Sim env L S A) {x : Nat} (hx : x < L * L) : S.Occ x ↔ 0 ≤ A.V.sg x := by
  rw [M.occ_iff]; exact ⟨fun h => h.2, fun h => ⟨hx, h⟩⟩

/-- `place_one_site` of L1. -/
theorem l1_rule (M : Sim env L S A) (I : AInv L A) (h : S.placeOneSite env .l1 d = .ok (S', b)) :
    (L * L ≤ S.currentIdx ∧ S'.selectionFlag = some .emptySiteList ∧ b = false ∧ S'.selected = S.selected ∧ S'.xOccupied = S.xOccupied ∧
      S'.seqRecord = S.seqRecord) ∨
    (S.currentIdx < L * L ∧ ∃ x, S.drawn d = some x ∧ x < L * L ∧
      ((¬ S.Occ x ∧ S'.selectionFlag = some .success ∧ S'.selected = some x ∧ S'.xOccupied = S.xOccupied ∧ S'.seqRecord = S.seqRecord ++ [x]) ∨
       (S.Occ x ∧ ¬ S.Occ (nbr L x (dirOf d.b)) ∧ S'.selectionFlag = some .success ∧ S'.selected = some (nbr L x (dirOf d.b)) ∧
        S'.xOccupied = S.xOccupied + 1 ∧ S'.seqRecord = S.seqRecord ++ [nbr L x (dirOf d.b)]) ∨
       (S.Occ x ∧ S.Occ (nbr L x (dirOf d.b)) ∧ S'.selectionFlag = some .currentSiteNotEmpty ∧ S'.selected = S.selected ∧
        S'.xOccupied = S.xOccupied + 1 ∧ S'.seqRecord = S.seqRecord))) := by
  obtain ⟨S1, flag, hs, hb, hf, K⟩ := placeOneSite_select M I h
  rw [hf, hb, K.selected, K.xOccupied, K.seqRecord]
  rcases selectL1_inv M.lat hs with ⟨hc, e⟩ | ⟨hc1, hc2, x, hx, hxl⟩
  · obtain ⟨rfl, rfl⟩ := Prod.mk.inj e
    exact Or.inl ⟨hc, rfl, rfl, rfl, rfl, rfl⟩
  · refine Or.inr ⟨hc1, x, (drawn_eq S d).trans hx, hxl, ?_⟩
    replace hs : S.selectL1 d = .ok (S1, flag) := hs
    rw [selectL1_eq M.lat d hc1 hc2 rfl hx hxl] at hs
    rw [occ_iff_sg M hxl, occ_iff_sg M (nbr_lt hxl _)]
    split at hs
    · next h0 =>
      split at hs
      · next h1 =>
        split at hs
        · cases hs
        · obtain ⟨rfl, rfl⟩ := Prod.mk.inj (Except.ok.inj hs)
          exact Or.inr (Or.inr ⟨h0, h1, rfl, rfl, rfl, rfl⟩)
      · next h1 =>
        obtain ⟨a1, _, a2, _, a3, rfl, _⟩ := finishSelect_fields hs
        exact Or.inr (Or.inl ⟨h0, h1, rfl, a3, a1, a2⟩)
    · next h0 =>
      obtain ⟨a1, _, a2, _, a3, rfl, _⟩ := finishSelect_fields hs
      exact Or.inl ⟨h0, rfl, a3, a1, a2⟩

/-- `place_one_site` of L2. -/
theorem l2_rule (M : Sim env L S A) (I : AInv L A) (h : S.placeOneSite env .l2 d = .ok (S', b)) :
    (L * L ≤ S.currentIdx ∧ S'.selectionFlag = some .emptySiteList ∧ b = false ∧ S'.selected = S.selected ∧ S'.xOccupied = S.xOccupied ∧
      S'.yOccupied = S.yOccupied) ∨
    (S.currentIdx < L * L ∧ ∃ x, S.drawn d = some x ∧ x < L * L ∧
      ((¬ S.Occ x ∧ S'.selectionFlag = some .success ∧ S'.selected = some x ∧ S'.xOccupied = S.xOccupied ∧ S'.yOccupied = S.yOccupied) ∨
       (S.Occ x ∧ ¬ S.Occ (nbr L x (dirOf d.b)) ∧ S'.selectionFlag = some .success ∧ S'.selected = some (nbr L x (dirOf d.b)) ∧
        S'.xOccupied = S.xOccupied + 1 ∧ S'.yOccupied = S.yOccupied) ∨
       (S.Occ x ∧ S.Occ (nbr L x (dirOf d.b)) ∧ ¬ S.Occ (zOf L x (nbr L x (dirOf d.b))) ∧ S'.selectionFlag = some .success ∧
        S'.selected = some (zOf L x (nbr L x (dirOf d.b))) ∧ S'.xOccupied = S.xOccupied + 1 ∧ S'.yOccupied = S.yOccupied) ∨
       (S.Occ x ∧ S.Occ (nbr L x (dirOf d.b)) ∧ S.Occ (zOf L x (nbr L x (dirOf d.b))) ∧ S'.selectionFlag = some .currentSiteNotEmpty ∧
        S'.selected = S.selected ∧ S'.xOccupied = S.xOccupied + 1 ∧ S'.yOccupied = S.yOccupied + 1))) := by
  obtain ⟨S1, flag, hs, hb, hf, K⟩ := placeOneSite_select M I h
  rw [hf, hb, K.selected, K.xOccupied, K.yOccupied]
  rcases selectL2_inv M.lat hs with ⟨hc, e⟩ | ⟨hc1, hc2, x, hx, hxl⟩
  · obtain ⟨rfl, rfl⟩ := Prod.mk.inj e
    exact Or.inl ⟨hc, rfl, rfl, rfl, rfl, rfl⟩
  · refine Or.inr ⟨hc1, x, (drawn_eq S d).trans hx, hxl, ?_⟩
    replace hs : S.selectL2 d = .ok (S1, flag) := hs
    rw [selectL2_eq M.lat d hc1 hc2 rfl hx hxl] at hs
    have hy := nbr_lt hxl (dirOf d.b)
    rw [occ_iff_sg M hxl, occ_iff_sg M hy, occ_iff_sg M (siteBeyond_mk (V := A.V) hxl hy).2]
    split at hs
    · next h0 =>
      split at hs
      · next h1 =>
        split at hs
        · cases hs
        · split at hs
          · next h2 =>
            split at hs
            · cases hs
            · obtain ⟨rfl, rfl⟩ := Prod.mk.inj (Except.ok.inj hs)
              exact Or.inr (Or.inr (Or.inr ⟨h0, h1, h2, rfl, rfl, rfl, rfl⟩))
          · next h2 =>
            obtain ⟨a1, a2, _, _, a3, rfl, _⟩ := finishSelect_fields hs
            exact Or.inr (Or.inr (Or.inl ⟨h0, h1, h2, rfl, a3, a1, a2⟩))
      · next h1 =>
        obtain ⟨a1, a2, _, _, a3, rfl, _⟩ := finishSelect_fields hs
        exact Or.inr (Or.inl ⟨h0, h1, rfl, a3, a1, a2⟩)
    · next h0 =>
      obtain ⟨a1, a2, _, _, a3, rfl, _⟩ := finishSelect_fields hs
      exact Or.inl ⟨h0, rfl, a3, a1, a2⟩

/-- Resetting clears the counters and the record. -/
theorem reset_counters {draws : Nat → Nat} (h : Reach env v L S) (hr : S.reset env v draws = .ok S') :
    S'.xOccupied = 0 ∧ S'.yOccupied = 0 ∧ S'.seqRecord = [] := by
  have U := (Reach.step (.reset draws) h hr).unused
  have hr' : (S.resetBase draws >>= _) = _ := hr
  cases hb : S.resetBase draws with
  | error e => rw [hb] at hr'; cases hr'
  | ok S1 =>
    rw [hb] at hr'
    cases v with
    | l0 => exact ⟨U.x rfl, U.y (by simp), U.seq (by simp)⟩
    | sp => exact ⟨U.x rfl, U.y (by simp), U.seq (by simp)⟩
    | l1 => 
      refine ⟨?_, U.y (by simp), ?_⟩ <;> (rw [← Except.ok.inj hr'])
    | l2 =>
      refine ⟨?_, ?_, U.seq (by simp)⟩ <;> (rw [← Except.ok.inj hr'])

end SqPerc
