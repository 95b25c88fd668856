import Verif.Proof.Window
import Verif.Proof.Raise
import Verif.Proof.Shortest
/-
Every run ends: a number that falls with every call of `place_one_site` that returns True, whatever the history of the object.
-/
namespace SqPerc

variable {α : Type} {L : Nat} {env : Env α} {v : Variant} {S S1 S' : Perc α} {A : Abs α} {d : Draw} {b : Bool}

/-! ### The counters are at most four -/

theorem dec_le {n : Int} (h : n ≤ 4) : dec n ≤ 4 := by unfold dec; split <;> omega

/-- The neighbour counters start at four and are never increased. -/
def CntLe (L : Nat) (S : Perc α) : Prop := ∀ x < L * L, S.cnt1 x ≤ 4 ∧ S.cnt2 x ≤ 4

theorem cntLe_iff {V : LV} (hS : S.lat = mkLat L V) : CntLe L S ↔ ∀ x < L * L, V.n1 x ≤ 4 ∧ V.n2 x ≤ 4 := by
  refine forall₂_congr fun x hx => ?_
  rw [cnt1_mk hS hx, cnt2_mk hS hx]

theorem selectSite_cntLe {f : SelectionState} (M : Sim env L S A) (q : CntLe L S) (h : S.selectSite v d = .ok (S1, f)) : CntLe L S1 := by
  rw [cntLe_iff M.lat] at q
  have same : ∀ {T : Perc α}, T.lat = mkLat L A.V → CntLe L T := fun hT => (cntLe_iff hT).2 q
  have upd1 : ∀ {x : Nat}, ∀ y < L * L, upd A.V.n1 x (dec (A.V.n1 x)) y ≤ 4 := by
    intro x y hy
    unfold upd
    split
    · next e => subst e; exact dec_le (q _ hy).1
    · exact (q y hy).1
  have upd2 : ∀ {x : Nat}, ∀ y < L * L, upd A.V.n2 x (dec (A.V.n2 x)) y ≤ 4 := by
    intro x y hy
    unfold upd
    split
    · next e => subst e; exact dec_le (q _ hy).2
    · exact (q y hy).2
  have plain : S.selectL0 = .ok (S1, f) → CntLe L S1 := fun h => same (by rw [(selectL0_lat h)]; exact M.lat)
  have fin : ∀ {T T' : Perc α} {j : Nat}, T.finishSelect j = .ok (T', f) → T'.lat = T.lat := fun h => finishSelect_lat h
  cases v with
  | l0 => exact plain h
  | sp => exact plain h
  | l1 =>
    simp only [Perc.selectSite] at h
    rcases selectL1_inv M.lat h with ⟨_, h1⟩ | ⟨h1, h2, x, hx, hxl⟩
    · rw [(Prod.mk.inj h1).1]; exact same M.lat
    · rw [selectL1_eq M.lat d h1 h2 rfl hx hxl] at h
      split at h
      · split at h
        · split at h
          · cases h
          · rw [← (Prod.mk.inj (Except.ok.inj h)).1]
            exact (cntLe_iff (V := { A.V with n1 := upd A.V.n1 x (dec (A.V.n1 x)) }) rfl).2 fun y hy => ⟨upd1 y hy, (q y hy).2⟩
        · exact same ((fin h).trans M.lat)
      · exact same ((fin h).trans M.lat)
  | l2 =>
    simp only [Perc.selectSite] at h
    rcases selectL2_inv M.lat h with ⟨_, h1⟩ | ⟨h1, h2, x, hx, hxl⟩
    · rw [(Prod.mk.inj h1).1]; exact same M.lat
    · rw [selectL2_eq M.lat d h1 h2 rfl hx hxl] at h
      split at h
      · split at h
        · split at h
          · cases h
          · split at h
            · split at h
              · cases h
              · rw [← (Prod.mk.inj (Except.ok.inj h)).1]
                exact (cntLe_iff (V := { A.V with n1 := upd A.V.n1 x (dec (A.V.n1 x)), n2 := upd A.V.n2 x (dec (A.V.n2 x)) }) rfl).2
                  fun y hy => ⟨upd1 y hy, upd2 y hy⟩
            · exact (cntLe_iff (V := { A.V with n1 := upd A.V.n1 x (dec (A.V.n1 x)) }) (fin h)).2 fun y hy => ⟨upd1 y hy, (q y hy).2⟩
        · exact same ((fin h).trans M.lat)
      · exact same ((fin h).trans M.lat)

theorem CntLe.congr (q : CntLe L S) (h : ∀ x, S'.cnt1 x = S.cnt1 x ∧ S'.cnt2 x = S.cnt2 x) : CntLe L S' := fun x hx => by
  rw [(h x).1, (h x).2]; exact q x hx

theorem Reach.cntLe (h : Reach env v L S) : CntLe L S := by
  refine Reach.induct (fun S => CntLe L S) ?_ ?_ ?_ ?_ ?_ ?_ ?_ ?_ h
  · intro draws S h
    obtain ⟨_, _, M⟩ := new_sim h
    exact (cntLe_iff M.lat).2 fun x _ => ⟨show (4 : Int) ≤ 4 by decide, show (4 : Int) ≤ 4 by decide⟩
  · intro S S' A d b M hA q h
    obtain ⟨S1, f, h1, _, _, K⟩ := placeOneSite_select M hA.inv h
    exact (selectSite_cntLe M q h1).congr K.cnt
  · intro S S' A w M hA q h
    exact q.congr fun x => ((detectWrapping_keep M hA.inv h).1.cnt x)
  · intro S S' A draws M hA q h
    have M' := reset_sim M h
    exact (cntLe_iff M'.lat).2 fun x _ => ⟨show (4 : Int) ≤ 4 by decide, show (4 : Int) ≤ 4 by decide⟩
  · intro S fr l1 l2 l3 l4 q; exact q
  · intro hv S p q; exact q
  · intro S ids rev mc ds mi hk q; exact q
  · intro _ S A k _ _ _ _ _ q; exact q

/-! ### One call -/

/-- The counter that decides when a candidate of L1 or L2 is given up. -/
def Perc.cntOf (S : Perc α) : Variant → Nat → Int
  | .l2 => S.cnt2
  | _ => S.cnt1

/-- What `place_one_site` of L1 and L2 does to the list of candidates. -/
theorem place_pool (M : Sim env L S A) (I : AInv L A) (hv : v.plain = false) (h : S.placeOneSite env v d = .ok (S', b)) :
    (b = false ∧ L * L ≤ S.currentIdx ∧ S'.siteIds = S.siteIds ∧ S'.currentIdx = S.currentIdx ∧ S'.occupiedCount = S.occupiedCount ∧
      (∀ s, S'.Occ s ↔ S.Occ s)) ∨
    (b = true ∧ S.currentIdx < L * L ∧ S.currentIdx < S.siteIds.length ∧ S'.siteIds = S.siteIds ∧ S'.currentIdx = S.currentIdx ∧
      S'.occupiedCount = S.occupiedCount + 1 ∧ (∀ x < L * L, S'.cntOf v x = S.cntOf v x) ∧ (∀ s, S.Occ s → S'.Occ s) ∧
      S'.selectionFlag = some .success ∧ S'.selected ≠ none) ∨
    (b = true ∧ S.currentIdx < L * L ∧ S.currentIdx < S.siteIds.length ∧ ∃ rnd x, S.currentIdx ≤ rnd ∧ S.siteIds[rnd]? = some x ∧ x < L * L ∧ S.Occ x ∧
      S'.siteIds = (if dec (S.cntOf v x) = 0 then dropAt S rnd else S.siteIds) ∧
      S'.currentIdx = (if dec (S.cntOf v x) = 0 then S.currentIdx + 1 else S.currentIdx) ∧
      (∀ s, S'.Occ s ↔ S.Occ s) ∧ (∀ y < L * L, S'.cntOf v y = if y = x then dec (S.cntOf v x) else S.cntOf v y) ∧
      S'.occupiedCount = S.occupiedCount ∧ S'.selectionFlag = some .currentSiteNotEmpty) := by
  obtain ⟨S1, f, hs, rfl, hf, K⟩ := placeOneSite_select M I h
  have ho := placeOneSite_occ M I h
  rw [hf] at ho
  have hk : ∀ x, S'.cntOf v x = S1.cntOf v x := fun x => by
    cases v <;> first | exact (K.cnt x).1 | exact (K.cnt x).2
  rw [K.siteIds, K.currentIdx, hf]
  simp only [hk]
  -- a selection that succeeds
  have suc : ∀ {T : Perc α} {k : Nat}, T.finishSelect k = .ok (S1, f) → S.currentIdx < L * L → S.currentIdx < S.siteIds.length →
      T.siteIds = S.siteIds → T.currentIdx = S.currentIdx → (∀ x < L * L, T.cntOf v x = S.cntOf v x) →
      (decide (f ≠ .emptySiteList) = true ∧ S.currentIdx < L * L ∧ S.currentIdx < S.siteIds.length ∧ S1.siteIds = S.siteIds ∧ S1.currentIdx = S.currentIdx ∧
        S'.occupiedCount = S.occupiedCount + 1 ∧ (∀ x < L * L, S1.cntOf v x = S.cntOf v x) ∧ (∀ s, S.Occ s → S'.Occ s) ∧
        some f = some .success ∧ S'.selected ≠ none) := by
    intro T k h h1 h2 e1 e2 e3
    obtain ⟨a1, a2, a3, a4, a5, rfl, a7, a8⟩ := finishSelect_fields h
    obtain ⟨_, _, k', hsel, _, _, hocc, hcnt⟩ := ho.resolve_right (fun h => h.1 rfl)
    refine ⟨rfl, h1, h2, a7.trans e1, a8.trans e2, hcnt, fun x hx => ?_, fun s hs => (hocc s).2 (Or.inl hs), rfl, by rw [hsel]; simp⟩
    rw [← e3 x hx]
    have hl := finishSelect_lat h
    cases v <;> simp only [Perc.cntOf, Perc.cnt1, Perc.cnt2, hl]
  have fl : f ≠ .success → (∀ s, S'.Occ s ↔ S.Occ s) ∧ S'.occupiedCount = S.occupiedCount := fun hne => by
    obtain ⟨_, hocc, hcnt, _⟩ := ho.resolve_left (fun h => hne (Option.some.inj h.1))
    exact ⟨hocc, hcnt⟩
  cases v with
  | l0 => cases hv
  | sp => cases hv
  | l1 =>
    simp only [Perc.selectSite] at hs
    rcases selectL1_inv M.lat hs with ⟨hc, e⟩ | ⟨h1, h2, x, hx, hxl⟩
    · obtain ⟨rfl, rfl⟩ := Prod.mk.inj e
      exact Or.inl ⟨rfl, hc, rfl, rfl, (fl (by simp)).2, (fl (by simp)).1⟩
    · rw [selectL1_eq M.lat d h1 h2 rfl hx hxl] at hs
      split at hs
      · next h0 =>
        split at hs
        · split at hs
          · cases hs
          · obtain ⟨rfl, rfl⟩ := Prod.mk.inj (Except.ok.inj hs)
            have hn : S.cntOf .l1 x = A.V.n1 x := cnt1_mk M.lat hxl
            refine Or.inr (Or.inr ⟨rfl, h1, h2, _, x, Nat.le_add_right _ _, hx, hxl, occ_of_sg M hxl h0, by rw [hn]; rfl, by rw [hn]; rfl,
              (fl (by simp)).1, fun y hy => ?_, (fl (by simp)).2, rfl⟩)
            show Perc.cnt1 _ y = _
            rw [cnt1_mk (V := { A.V with n1 := upd A.V.n1 x (dec (A.V.n1 x)) }) rfl hy, hn, show S.cntOf .l1 y = A.V.n1 y from cnt1_mk M.lat hy]
            rfl
        · exact Or.inr (Or.inl (suc hs h1 h2 rfl rfl (fun _ _ => rfl)))
      · exact Or.inr (Or.inl (suc hs h1 h2 rfl rfl (fun _ _ => rfl)))
  | l2 =>
    simp only [Perc.selectSite] at hs
    rcases selectL2_inv M.lat hs with ⟨hc, e⟩ | ⟨h1, h2, x, hx, hxl⟩
    · obtain ⟨rfl, rfl⟩ := Prod.mk.inj e
      exact Or.inl ⟨rfl, hc, rfl, rfl, (fl (by simp)).2, (fl (by simp)).1⟩
    · rw [selectL2_eq M.lat d h1 h2 rfl hx hxl] at hs
      split at hs
      · next h0 =>
        split at hs
        · split at hs
          · cases hs
          · split at hs
            · split at hs
              · cases hs
              · obtain ⟨rfl, rfl⟩ := Prod.mk.inj (Except.ok.inj hs)
                have hn : S.cntOf .l2 x = A.V.n2 x := cnt2_mk M.lat hxl
                refine Or.inr (Or.inr ⟨rfl, h1, h2, _, x, Nat.le_add_right _ _, hx, hxl, occ_of_sg M hxl h0, by rw [hn]; rfl, by rw [hn]; rfl,
                  (fl (by simp)).1, fun y hy => ?_, (fl (by simp)).2, rfl⟩)
                show Perc.cnt2 _ y = _
                rw [cnt2_mk (V := { A.V with n1 := upd A.V.n1 x (dec (A.V.n1 x)), n2 := upd A.V.n2 x (dec (A.V.n2 x)) }) rfl hy, hn,
                  show S.cntOf .l2 y = A.V.n2 y from cnt2_mk M.lat hy]
                rfl
            · refine Or.inr (Or.inl (suc hs h1 h2 rfl rfl (fun y hy => ?_)))
              show Perc.cnt2 _ y = S.cnt2 y
              rw [cnt2_mk (V := { A.V with n1 := upd A.V.n1 x (dec (A.V.n1 x)) }) rfl hy, cnt2_mk M.lat hy]
        · exact Or.inr (Or.inl (suc hs h1 h2 rfl rfl (fun _ _ => rfl)))
      · exact Or.inr (Or.inl (suc hs h1 h2 rfl rfl (fun _ _ => rfl)))

/-! ### The number of calls left -/

/-- Weight of a candidate: how often it can still be drawn in vain. -/
def wt (n : Nat → Int) (x : Nat) : Nat := max 1 (n x).toNat

theorem sum_le {w : List Nat} {f g : Nat → Nat} (h : ∀ y ∈ w, g y ≤ f y) : (w.map g).sum ≤ (w.map f).sum := by
  induction w with
  | nil => simp
  | cons a w ih =>
    simp only [List.map_cons, List.sum_cons]
    have := ih fun y hy => h y (by simp [hy])
    have := h a (by simp)
    omega

theorem sum_lt {w : List Nat} {f g : Nat → Nat} (h : ∀ y ∈ w, g y ≤ f y) {x : Nat} (hx : x ∈ w) (hlt : g x < f x) : (w.map g).sum < (w.map f).sum := by
  induction w with
  | nil => simp at hx
  | cons a w ih =>
    simp only [List.map_cons, List.sum_cons]
    have h1 := h a (by simp)
    have h2 := sum_le (w := w) (f := f) (g := g) fun y hy => h y (by simp [hy])
    rcases List.mem_cons.1 hx with e | e
    · subst e; omega
    · have := ih (fun y hy => h y (by simp [hy])) e
      omega

/-- Bound for the number of further calls of `place_one_site` that return True. -/
def Perc.fuelLeft (L : Nat) (S : Perc α) (v : Variant) : Nat :=
  if v.plain then S.maxIter - S.currentIdx
  else (S.pool'.map (wt (S.cntOf v))).sum + (L * L - S.occupiedCount)

/-- What the loops keep. -/
structure Good (env : Env α) (v : Variant) (L : Nat) (S : Perc α) : Prop where
  sim : ∃ A, Sim env L S A ∧ AReach env L A
  lt : ∀ k ∈ S.siteIds, k < L * L
  rev : S.revIds.length = L * L
  cnt : CntOk L S
  sized : v.plain = true → S.siteIds.length = S.maxIter

theorem Reach.good (h : Reach env v L S) : Good env v L S :=
  ⟨h.sim.2, h.ids.1, h.ids.2, h.cntOk, h.sized⟩

/-- A candidate drawn in vain reduces the number of calls left. -/
theorem fail_lt {n n' : Nat → Int} {rnd x : Nat} (hlt : ∀ k ∈ S.siteIds, k < L * L) (hn : ∀ y < L * L, 0 ≤ n y) (hc : S.currentIdx < S.siteIds.length)
    (hr : S.currentIdx ≤ rnd) (hx : S.siteIds[rnd]? = some x)
    (h1 : S'.siteIds = if dec (n x) = 0 then dropAt S rnd else S.siteIds)
    (h2 : S'.currentIdx = if dec (n x) = 0 then S.currentIdx + 1 else S.currentIdx)
    (h4 : ∀ y < L * L, n' y = if y = x then dec (n x) else n y) :
    (S'.pool'.map (wt n')).sum < (S.pool'.map (wt n)).sum ∧ (∀ y ∈ S.pool', y ∈ S'.pool' ∨ y = x) ∧ ∀ y ∈ S'.pool', y ∈ S.pool' := by
  have hw : S.pool'[rnd - S.currentIdx]? = some x := by
    unfold Perc.pool'
    rw [List.getElem?_drop, show S.currentIdx + (rnd - S.currentIdx) = rnd by omega]; exact hx
  have hxw : x ∈ S.pool' := List.mem_of_getElem? hw
  have hxl : x < L * L := hlt x (List.mem_of_getElem? hx)
  have hpl : ∀ y ∈ S.pool', y < L * L := fun y hy => hlt y (List.mem_of_mem_drop hy)
  have hle : ∀ y < L * L, wt n' y ≤ wt n y := by
    intro y hy
    unfold wt
    rw [h4 y hy]
    split
    · next e =>
      subst e
      have := hn _ hy
      unfold dec; split <;> omega
    · exact le_refl _
  by_cases h0 : dec (n x) = 0
  · rw [if_pos h0] at h1 h2
    have hcur : S.siteIds[S.currentIdx]? = some S.siteIds[S.currentIdx] := List.getElem?_eq_getElem hc
    have hp' : S'.pool' = (S.pool'.set (rnd - S.currentIdx) S.siteIds[S.currentIdx]).tail := by
      unfold Perc.pool'
      rw [h1, h2]
      unfold dropAt
      rw [hcur, Option.getD_some, ← List.tail_drop, List.drop_set, if_neg (by omega)]
    have hperm : S.pool'.Perm (x :: S'.pool') := by
      rw [hp']
      apply drop_perm _ _ _ _ hw
      unfold Perc.pool'
      rw [List.getElem?_drop]; exact hcur
    refine ⟨?_, fun y hy => ?_, fun y hy => hperm.mem_iff.2 (by simp [hy])⟩
    · rw [(hperm.map (wt n)).sum_eq]
      simp only [List.map_cons, List.sum_cons]
      have := sum_le (w := S'.pool') (f := wt n) (g := wt n') fun y hy => hle y (hpl y (hperm.mem_iff.2 (by simp [hy])))
      have h1 : 1 ≤ wt n x := le_max_left _ _
      omega
    · rcases List.mem_cons.1 (hperm.mem_iff.1 hy) with h | h
      · exact Or.inr h
      · exact Or.inl h
  · rw [if_neg h0] at h1 h2
    have hp : S'.pool' = S.pool' := by unfold Perc.pool'; rw [h1, h2]
    rw [hp]
    refine ⟨sum_lt (fun y hy => hle y (hpl y hy)) hxw ?_, fun y hy => Or.inl hy, fun y hy => hy⟩
    unfold wt
    rw [h4 x hxl, if_pos rfl]
    have := hn _ hxl
    revert h0
    unfold dec; split <;> omega

/-- The outcomes of a call of `place_one_site`: a call that returns True reduces the number of calls left. -/
theorem Good.place (G : Good env v L S) (d : Draw) :
    (S.placeOneSite env v d = .error (if v.plain then .assertionError else .valueError)) ∨
    ∃ S' b, S.placeOneSite env v d = .ok (S', b) ∧ Good env v L S' ∧ (b = true → S'.fuelLeft L v < S.fuelLeft L v) ∧
      (S'.selectionFlag = some .success → S'.selected ≠ none) := by
  obtain ⟨A, M, hA⟩ := G.sim
  have I := hA.inv
  have mk : ∀ {S' : Perc α} {b : Bool}, S.placeOneSite env v d = .ok (S', b) → Good env v L S' := by
    intro S' b h
    obtain ⟨A', hst, M'⟩ := placeOneSite_steps M I h
    obtain ⟨S1, f, hs, _, _, K⟩ := placeOneSite_select M I h
    have a := (placeOneSite_sim M I h).1
    refine ⟨⟨A', M', hA.steps hst⟩, ?_, by rw [a.rev]; exact G.rev, (selectSite_cntOk M G.cnt hs).congr K.cnt, fun hv => ?_⟩
    · rw [K.siteIds]; exact fun k hk => G.lt k (selectSite_ids M hs k hk)
    · rw [K.siteIds, selectL0_siteIds (by rw [← selectSite_plain hv]; exact hs), a.maxIter]; exact G.sized hv
  cases hv : v.plain with
  | true =>
    rcases place_plain (env := env) M I hv (G.sized hv) G.lt d with ⟨_, hp⟩ | ⟨hi, k, hk, ho, S1, hp, hf, hsel, hids, hidx⟩ | ⟨hi, k, hk, ho, hp, hr⟩
    · exact Or.inr ⟨_, _, hp, mk hp, fun h => (by cases h), fun h => (by cases h)⟩
    · refine Or.inr ⟨_, _, hp, mk hp, fun _ => ?_, fun _ => by rw [hsel]; simp⟩
      have a := (placeOneSite_sim M I hp).1
      unfold Perc.fuelLeft
      rw [if_pos hv, if_pos hv, a.maxIter, hidx]; omega
    · exact Or.inl hp
  | false =>
    rcases place_l1l2 (env := env) M I hv G.cnt G.lt d with ⟨_, _, hp⟩ | ⟨_, ⟨S1, b⟩, hp⟩
    · exact Or.inl hp
    · refine Or.inr ⟨S1, b, hp, mk hp, ?_⟩
      have hocc := occupiedCount_le M hA
      obtain ⟨A', hst, M'⟩ := placeOneSite_steps M I hp
      have hocc' := occupiedCount_le M' (hA.steps hst)
      unfold Perc.fuelLeft
      rw [if_neg (by simp [hv]), if_neg (by simp [hv])]
      rcases place_pool M I hv hp with ⟨rfl, hc, e1, e2, e3, _⟩ | ⟨rfl, h1, h2, e1, e2, e3, e4, _, _, e5⟩ | ⟨rfl, h1, h2, rnd, x, hr, hx, hxl, _, e1, e2, _, e4, e3, e5⟩
      · refine ⟨fun h => (by cases h), fun h => ?_⟩
        obtain ⟨_, hb, _⟩ := (placeOneSite_occ M I hp).resolve_right (fun g => g.1 h)
        cases hb
      · refine ⟨fun _ => ?_, fun _ => e5⟩
        have hp : S1.pool' = S.pool' := by unfold Perc.pool'; rw [e1, e2]
        have hle : (S1.pool'.map (wt (S1.cntOf v))).sum ≤ (S.pool'.map (wt (S.cntOf v))).sum := by
          rw [hp]
          refine sum_le fun y hy => ?_
          unfold wt
          rw [e4 y (G.lt y (List.mem_of_mem_drop hy))]
        omega
      · refine ⟨fun _ => ?_, fun h => (by rw [e5] at h; cases h)⟩
        have hn : ∀ y < L * L, 0 ≤ S.cntOf v y := fun y hy => by
          cases v <;> first | exact (G.cnt y hy).1 | exact (G.cnt y hy).2
        have := (fail_lt G.lt hn h2 hr hx e1 e2 e4).1
        omega

theorem Good.detect {w : Bool} (G : Good env v L S) (h : S.detectWrapping = .ok (S', w)) : Good env v L S' ∧ S'.fuelLeft L v = S.fuelLeft L v := by
  obtain ⟨A, M, hA⟩ := G.sim
  obtain ⟨a, _, _, A', hst, M', _⟩ := detectWrapping_steps M hA.inv h
  obtain ⟨K, _, hc⟩ := detectWrapping_keep M hA.inv h
  have hk : S'.cntOf v = S.cntOf v := funext fun x => by
    cases v <;> first | exact (K.cnt x).1 | exact (K.cnt x).2
  refine ⟨⟨⟨A', M', hA.steps hst⟩, by rw [K.siteIds]; exact G.lt, ?_, G.cnt.congr K.cnt, fun hv => by rw [K.siteIds, a.maxIter]; exact G.sized hv⟩, ?_⟩
  · rw [a.rev]; exact G.rev
  · unfold Perc.fuelLeft Perc.pool'
    rw [K.siteIds, K.currentIdx, a.maxIter, hk, hc]

theorem Good.record (G : Good env v L S) (h : S.record env = .ok S') : Good env v L S' ∧ S'.fuelLeft L v = S.fuelLeft L v := by
  obtain ⟨A, M, hA⟩ := G.sim
  have M' := record_sim M h
  obtain ⟨p, _, rfl⟩ := record_ok h
  exact ⟨⟨⟨A, M', hA⟩, G.lt, G.rev, G.cnt, G.sized⟩, by cases v <;> rfl⟩

theorem Good.detect_ok (G : Good env v L S) (hsel : S.selected ≠ none) : ∃ S' w, S.detectWrapping = .ok (S', w) := by
  obtain ⟨A, M, hA⟩ := G.sim
  exact detectWrapping_ok M hA.inv hsel

theorem Good.record_ok (G : Good env v L S) : ∃ S', S.record env = .ok S' := by
  obtain ⟨A, M, hA⟩ := G.sim
  exact record_progress M hA

/-- The loop of `run_once` ends, normally or with the exception of `select_site`. -/
theorem runLoop_ends (fuel : Nat) : ∀ {ds : Nat → Draw} {S : Perc α}, Good env v L S → S.fuelLeft L v < fuel →
    (∃ S', Perc.runLoop env v fuel ds S = .ok S') ∨ Perc.runLoop env v fuel ds S = .error (if v.plain then .assertionError else .valueError) := by
  induction fuel with
  | zero => intro ds S G h; omega
  | succ fuel ih =>
    intro ds S G h
    simp only [Perc.runLoop]
    rcases G.place (ds 0) with hp | ⟨S1, b, hp, G1, hlt, hsel⟩
    · rw [hp]; exact Or.inr rfl
    · rw [hp]
      cases b with
      | false => exact Or.inl ⟨S1, rfl⟩
      | true =>
        have hlt := hlt rfl
        show (∃ S', (if S1.selectionFlag = some .success then _ else _) = _) ∨ (if S1.selectionFlag = some .success then _ else _) = _
        split
        · next hf =>
          obtain ⟨S2, w, hd⟩ := G1.detect_ok (hsel hf)
          obtain ⟨G2, e2⟩ := G1.detect hd
          obtain ⟨S3, hr⟩ := G2.record_ok
          obtain ⟨G3, e3⟩ := G2.record hr
          rw [hd]
          show (∃ S', (S2.record env >>= _) = _) ∨ (S2.record env >>= _) = _
          rw [hr]
          exact ih G3 (by omega)
        · exact ih G1 (show S1.fuelLeft L v < fuel by omega)

/-- The loop of `test_run_once` ends. -/
theorem testRunLoop_ends (fuel : Nat) : ∀ {ds : Nat → Draw} {S : Perc α}, Good env v L S → S.fuelLeft L v < fuel →
    (∃ S', Perc.testRunLoop env v fuel ds S = .ok S') ∨ Perc.testRunLoop env v fuel ds S = .error .assertionError ∨
      v.plain = false ∧ Perc.testRunLoop env v fuel ds S = .error .valueError := by
  induction fuel with
  | zero => intro ds S G h; omega
  | succ fuel ih =>
    intro ds S G h
    simp only [Perc.testRunLoop]
    rcases G.place (ds 0) with hp | ⟨S1, b, hp, G1, hlt, hsel⟩
    · rw [hp]
      cases hv : v.plain with
      | true => exact Or.inr (Or.inl rfl)
      | false => exact Or.inr (Or.inr ⟨rfl, rfl⟩)
    · rw [hp]
      cases b with
      | false => exact Or.inl ⟨S1, rfl⟩
      | true =>
        have hlt := hlt rfl
        show (∃ S', (if S1.selectionFlag = some .success then _ else _) = _) ∨ (if S1.selectionFlag = some .success then _ else _) = _ ∨
          _ ∧ (if S1.selectionFlag = some .success then _ else _) = _
        split
        · next hf =>
          obtain ⟨S2, w, hd⟩ := G1.detect_ok (hsel hf)
          obtain ⟨G2, e2⟩ := G1.detect hd
          rw [hd]
          cases w with
          | true =>
            show (∃ S', (pyAssert (decide (S2.pcOccupied > S2.getSiteCountPc)) >>= fun _ => Except.ok S2) = _) ∨
              (pyAssert (decide (S2.pcOccupied > S2.getSiteCountPc)) >>= fun _ => Except.ok S2) = _ ∨ _
            by_cases hg : S2.pcOccupied > S2.getSiteCountPc
            · rw [show decide (S2.pcOccupied > S2.getSiteCountPc) = true by simpa using hg]; exact Or.inl ⟨S2, rfl⟩
            · rw [show decide (S2.pcOccupied > S2.getSiteCountPc) = false by simpa using hg]; exact Or.inr (Or.inl rfl)
          | false =>
            obtain ⟨S3, hr⟩ := G2.record_ok
            obtain ⟨G3, e3⟩ := G2.record hr
            show (∃ S', (S2.record env >>= _) = _) ∨ (S2.record env >>= _) = _ ∨ _ ∧ (S2.record env >>= _) = _
            rw [hr]
            exact ih G3 (by omega)
        · exact ih G1 (show S1.fuelLeft L v < fuel by omega)

/-- `scan_row_col_of_selected_site` does not raise. -/
theorem Good.scan_ok (G : Good env v L S) {k : Nat} (hk : k < L * L) :
    ∃ st fs, S.lat.getSite k = .ok st ∧ S.scanRowCol st.index.c1.toNat st.index.c2.toNat = .ok fs := by
  obtain ⟨A, M, hA⟩ := G.sim
  have h0 : 0 < L := by
    rcases Nat.eq_zero_or_pos L with h | h
    · subst h; simp at hk
    · exact h
  have hlen : S.lat.length = L := by rw [M.lat]; rfl
  have h1 : (mkSite L A.V k).index.c1.toNat = k / L := Int.toNat_natCast _
  have h2 : (mkSite L A.V k).index.c2.toNat = k % L := Int.toNat_natCast _
  obtain ⟨fs, hfs⟩ : ∃ fs, S.scanRowCol (k / L) (k % L) = .ok fs := by
    rw [Perc.scanRowCol, hlen, scanLines_eq M (Nat.div_lt_of_lt_mul hk) (Nat.mod_lt _ h0) (List.range L) (fun x hx => List.mem_range.1 hx)]
    exact ⟨_, rfl⟩
  exact ⟨_, fs, by rw [M.lat, getSite_mk hk], by rw [h1, h2]; exact hfs⟩

/-- The loop of `run_once` of the shortest path class ends. -/
theorem spLoop_ends (fuel : Nat) : ∀ {S : Perc α}, Good env .sp L S → S.fuelLeft L .sp < fuel →
    (∃ r, Perc.spLoop env fuel S = .ok r) ∨ Perc.spLoop env fuel S = .error .assertionError := by
  induction fuel with
  | zero => intro S G h; omega
  | succ fuel ih =>
    intro S G h
    rcases G.place ⟨0, 0⟩ with hp | ⟨S1, b, hp, G1, hlt, hsel⟩
    · simp only [Perc.spLoop]; rw [hp]; exact Or.inr rfl
    · cases b with
      | false => simp only [Perc.spLoop]; rw [hp]; exact Or.inl ⟨_, rfl⟩
      | true =>
        have hlt := hlt rfl
        obtain ⟨A, M, hA⟩ := G.sim
        obtain ⟨hf, _⟩ := (place_sp_flag M hA.inv hp).resolve_left (fun h => by cases h.2)
        obtain ⟨_, _, k, hk, hkl, _⟩ := (placeOneSite_occ M hA.inv hp).resolve_right (fun h => h.1 hf)
        obtain ⟨S2, w, hd⟩ := G1.detect_ok (hsel hf)
        obtain ⟨G2, e2⟩ := G1.detect hd
        cases w with
        | false => rw [spLoop_unwrapped hp hf hd]; exact ih G2 (by omega)
        | true =>
          obtain ⟨A1, M1, hA1⟩ := G1.sim
          have hk2 : S2.selected = some k := (detectWrapping_keep M1 hA1.inv hd).1.selected.trans hk
          obtain ⟨st, ⟨f1, f2⟩, h1, h2⟩ := G2.scan_ok hkl
          rw [spLoop_wrapped hp hf hd hk2 h1 h2]
          split
          · exact Or.inl ⟨_, rfl⟩
          · exact ih G2 (by omega)

end SqPerc
