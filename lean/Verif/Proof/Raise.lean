import Verif.Proof.Observe
import Verif.Proof.Custom
/-
Which calls raise, and what is left when they do.
-/
namespace SqPerc

variable {α : Type} {L : Nat} {env : Env α} {v : Variant} {S S1 S' : Perc α} {A : Abs α} {d : Draw}

/-! ### The length of the list and the counters -/

theorem shuffle_len {draws : Nat → Nat} (hlt : ∀ k ∈ S.siteIds, k < S.revIds.length) (h : S.shuffle draws = .ok S') :
    S'.siteIds.length = S.siteIds.length ∧ S'.maxIter = S.maxIter := by
  cases hd : S.doShuffle with
  | false => rw [shuffle_off hd draws] at h; rw [← Except.ok.inj h]; exact ⟨rfl, rfl⟩
  | true =>
    obtain ⟨rev, h1, _⟩ := shuffle_default hd hlt draws
    rw [h1] at h
    rw [← Except.ok.inj h]
    exact ⟨(pyShuffle_perm _ _).length_eq, rfl⟩

/-- Plain classes: the number of iterations is the length of the list. -/
theorem Reach.sized (h : Reach env v L S) (hv : v.plain = true) : S.siteIds.length = S.maxIter := by
  refine (Reach.induct (fun S => ((∀ k ∈ S.siteIds, k < L * L) ∧ S.revIds.length = L * L) ∧ S.siteIds.length = S.maxIter)
    ?_ ?_ ?_ ?_ ?_ ?_ ?_ ?_ h).2
  · intro draws S h
    refine ⟨(Reach.new (v := v) h).ids, ?_⟩
    obtain ⟨_, rev, rfl, _, _⟩ := new_inv h
    show (pyShuffle draws (List.range (L * L))).length = L * L
    rw [(pyShuffle_perm _ _).length_eq, List.length_range]
  · intro S S' A d b M hA q h
    obtain ⟨S1, f, h1, _, _, K⟩ := placeOneSite_select M hA.inv h
    have X := (placeOneSite_sim M hA.inv h).1
    refine ⟨⟨fun k hk => q.1.1 k (selectSite_ids M h1 k (by rw [← K.siteIds]; exact hk)), by rw [X.rev]; exact q.1.2⟩, ?_⟩
    rw [selectSite_plain hv] at h1
    rw [K.siteIds, selectL0_siteIds h1, X.maxIter]; exact q.2
  · intro S S' A w M hA q h
    rcases detectWrapping_sim M hA.inv h with ⟨_, rfl, _⟩ | ⟨_, k, _, ⟨_, rfl, _⟩ | ⟨_, _, _, rfl⟩⟩ <;> exact q
  · intro S S' A draws M hA q h
    refine ⟨reset_ids M q.1 h, ?_⟩
    simp only [Perc.reset] at h
    cases hb : S.resetBase draws with
    | error e => rw [hb] at h; cases h
    | ok S1 =>
      rw [hb] at h
      have e : S1.siteIds.length = S1.maxIter := by
        simp only [Perc.resetBase, M.lat, reset_mk] at hb
        rw [initClusters_mk] at hb
        obtain ⟨T, hT⟩ : ∃ T : Perc α, T = { S with lat := mkLat L LV.init, pool := mkPool (2 * (L * L)) (PV.init (2 * (L * L))), pcBonds := none, pcSites := none } := ⟨_, rfl⟩
        replace hb : (Perc.shuffle { S with lat := mkLat L LV.init, pool := mkPool (2 * (L * L)) (PV.init (2 * (L * L))), pcBonds := none, pcSites := none } draws >>= _) = _ := hb
        rw [← hT] at hb
        cases hs : Perc.shuffle T draws with
        | error e => rw [hs] at hb; cases hb
        | ok S2 =>
          rw [hs] at hb
          obtain ⟨g1, g2⟩ := shuffle_len (by rw [hT]; intro k hk; show k < S.revIds.length; rw [q.1.2]; exact q.1.1 k hk) hs
          rw [← Except.ok.inj hb]
          show S2.siteIds.length = S2.maxIter
          rw [g1, g2, hT]; exact q.2
      cases v with
      | l0 => rw [← Except.ok.inj h]; exact e
      | sp => rw [← Except.ok.inj h]; exact e
      | l1 => cases hv
      | l2 => cases hv
  · intro S fr l1 l2 l3 l4 q; exact q
  · intro hv S p q; exact q
  · intro S ids rev mc ds mi hk q; exact ⟨⟨hk.lt q.1.1 q.1.2, hk.len.trans q.1.2⟩, hk.siz q.2⟩
  · intro _ S A k _ _ _ _ _ q; exact q

theorem dec_nonneg {n : Int} (h : 0 ≤ n) : 0 ≤ dec n := by unfold dec; split <;> omega

/-- The neighbour counters do not become negative. -/
def CntOk (L : Nat) (S : Perc α) : Prop := ∀ x < L * L, 0 ≤ S.cnt1 x ∧ 0 ≤ S.cnt2 x

theorem cntOk_iff {V : LV} (hS : S.lat = mkLat L V) : CntOk L S ↔ ∀ x < L * L, 0 ≤ V.n1 x ∧ 0 ≤ V.n2 x := by
  refine forall₂_congr fun x hx => ?_
  rw [cnt1_mk hS hx, cnt2_mk hS hx]

theorem selectL0_lat {f : SelectionState} (h : S.selectL0 = .ok (S1, f)) : S1.lat = S.lat := by
  simp only [Perc.selectL0] at h
  split at h
  · rw [← (Prod.mk.inj (Except.ok.inj h)).1]
  · cases h1 : pyGet S.siteIds S.currentIdx with
    | error e => rw [h1] at h; cases h
    | ok k =>
      rw [h1] at h
      replace h : (S.lat.getSite k >>= _) = _ := h
      cases h2 : S.lat.getSite k with
      | error e => rw [h2] at h; cases h
      | ok st =>
        rw [h2] at h
        replace h : (pyAssert (decide (st.gid = -1)) >>= _) = _ := h
        cases h3 : pyAssert (decide (st.gid = -1)) with
        | error e => rw [h3] at h; cases h
        | ok u => rw [h3] at h; rw [← (Prod.mk.inj (Except.ok.inj h)).1]

theorem finishSelect_lat {k : Nat} {f : SelectionState} (h : S.finishSelect k = .ok (S1, f)) : S1.lat = S.lat := by
  simp only [Perc.finishSelect] at h
  cases h1 : S.lat.getSite k with
  | error e => rw [h1] at h; cases h
  | ok st =>
    rw [h1] at h
    replace h : (pyAssert (decide (st.gid = -1)) >>= _) = _ := h
    cases h3 : pyAssert (decide (st.gid = -1)) with
    | error e => rw [h3] at h; cases h
    | ok u => rw [h3] at h; rw [← (Prod.mk.inj (Except.ok.inj h)).1]

theorem selectSite_cntOk {f : SelectionState} (M : Sim env L S A) (q : CntOk L S) (h : S.selectSite v d = .ok (S1, f)) : CntOk L S1 := by
  rw [cntOk_iff M.lat] at q
  have same : ∀ {T : Perc α}, T.lat = mkLat L A.V → CntOk L T := fun hT => (cntOk_iff hT).2 q
  have upd1 : ∀ {x : Nat}, ∀ y < L * L, 0 ≤ upd A.V.n1 x (dec (A.V.n1 x)) y := by
    intro x y hy
    unfold upd
    split
    · next e => subst e; exact dec_nonneg (q _ hy).1
    · exact (q y hy).1
  have upd2 : ∀ {x : Nat}, ∀ y < L * L, 0 ≤ upd A.V.n2 x (dec (A.V.n2 x)) y := by
    intro x y hy
    unfold upd
    split
    · next e => subst e; exact dec_nonneg (q _ hy).2
    · exact (q y hy).2
  have plain : S.selectL0 = .ok (S1, f) → CntOk L S1 := fun h => same (by rw [(selectL0_lat h)]; exact M.lat)
  have fin : ∀ {T T' : Perc α} {j : Nat}, T.finishSelect j = .ok (T', f) → T'.lat = T.lat := fun h => finishSelect_lat h
  cases v with
  | l0 => exact plain h
  | sp => exact plain h
  | l1 =>
    simp only [Perc.selectSite] at h
    rcases selectL1_inv M.lat h with ⟨_, h1⟩ | ⟨h1, h2, x, hx, hxl⟩
    · rw [(Prod.mk.inj h1).1]; exact same M.lat
    · rw [selectL1_eq M.lat d h1 h2 rfl hx hxl] at h
      split at h
      · split at h
        · split at h
          · cases h
          · rw [← (Prod.mk.inj (Except.ok.inj h)).1]
            exact (cntOk_iff (V := { A.V with n1 := upd A.V.n1 x (dec (A.V.n1 x)) }) rfl).2 fun y hy => ⟨upd1 y hy, (q y hy).2⟩
        · exact same ((fin h).trans M.lat)
      · exact same ((fin h).trans M.lat)
  | l2 =>
    simp only [Perc.selectSite] at h
    rcases selectL2_inv M.lat h with ⟨_, h1⟩ | ⟨h1, h2, x, hx, hxl⟩
    · rw [(Prod.mk.inj h1).1]; exact same M.lat
    · rw [selectL2_eq M.lat d h1 h2 rfl hx hxl] at h
      split at h
      · split at h
        · split at h
          · cases h
          · split at h
            · split at h
              · cases h
              · rw [← (Prod.mk.inj (Except.ok.inj h)).1]
                exact (cntOk_iff (V := { A.V with n1 := upd A.V.n1 x (dec (A.V.n1 x)), n2 := upd A.V.n2 x (dec (A.V.n2 x)) }) rfl).2
                  fun y hy => ⟨upd1 y hy, upd2 y hy⟩
            · exact (cntOk_iff (V := { A.V with n1 := upd A.V.n1 x (dec (A.V.n1 x)) }) (fin h)).2 fun y hy => ⟨upd1 y hy, (q y hy).2⟩
        · exact same ((fin h).trans M.lat)
      · exact same ((fin h).trans M.lat)

theorem CntOk.congr (q : CntOk L S) (h : ∀ x, S'.cnt1 x = S.cnt1 x ∧ S'.cnt2 x = S.cnt2 x) : CntOk L S' := fun x hx => by
  rw [(h x).1, (h x).2]; exact q x hx

theorem Reach.cntOk (h : Reach env v L S) : CntOk L S := by
  refine Reach.induct (fun S => CntOk L S) ?_ ?_ ?_ ?_ ?_ ?_ ?_ ?_ h
  · intro draws S h
    obtain ⟨_, _, M⟩ := new_sim h
    exact (cntOk_iff M.lat).2 fun x _ => ⟨show (0 : Int) ≤ 4 by decide, show (0 : Int) ≤ 4 by decide⟩
  · intro S S' A d b M hA q h
    obtain ⟨S1, f, h1, _, _, K⟩ := placeOneSite_select M hA.inv h
    exact (selectSite_cntOk M q h1).congr K.cnt
  · intro S S' A w M hA q h
    exact q.congr fun x => ((detectWrapping_keep M hA.inv h).1.cnt x)
  · intro S S' A draws M hA q h
    have M' := reset_sim M h
    exact (cntOk_iff M'.lat).2 fun x _ => ⟨show (0 : Int) ≤ 4 by decide, show (0 : Int) ≤ 4 by decide⟩
  · intro S fr l1 l2 l3 l4 q; exact q
  · intro hv S p q; exact q
  · intro S ids rev mc ds mi hk q; exact q
  · intro _ S A k _ _ _ _ _ q; exact q

/-! ### Placements of the plain classes -/

/-- The three outcomes of a placement of the plain classes. -/
theorem place_plain (M : Sim env L S A) (I : AInv L A) (hv : v.plain = true) (hz : S.siteIds.length = S.maxIter)
    (hlt : ∀ k ∈ S.siteIds, k < L * L) (d : Draw) :
    (S.maxIter ≤ S.currentIdx ∧ S.placeOneSite env v d = .ok ({ S with selectionFlag := some .emptySiteList }, false)) ∨
    (S.currentIdx < S.maxIter ∧ ∃ k, S.siteIds[S.currentIdx]? = some k ∧ ¬ S.Occ k ∧ ∃ S', S.placeOneSite env v d = .ok (S', true) ∧
      S'.selectionFlag = some .success ∧ S'.selected = some k ∧ S'.siteIds = S.siteIds ∧ S'.currentIdx = S.currentIdx + 1) ∨
    (S.currentIdx < S.maxIter ∧ ∃ k, S.siteIds[S.currentIdx]? = some k ∧ S.Occ k ∧ S.placeOneSite env v d = .error .assertionError ∧
      S.placeRaised v = { S with selected := some k }) := by
  by_cases hi : S.currentIdx < S.maxIter
  · right
    obtain ⟨k, hk⟩ : ∃ k, S.siteIds[S.currentIdx]? = some k := ⟨_, List.getElem?_eq_getElem (by omega)⟩
    have hkl := hlt k (List.mem_of_getElem? hk)
    by_cases ho : S.Occ k
    · right
      refine ⟨hi, k, hk, ho, ?_⟩
      have hu : A.V.sg k ≠ -1 := fun h => (not_occ_iff M I hkl).2 h ho
      have hs : S.selectL0 = .error .assertionError := by
        simp only [Perc.selectL0, pyGet, hk, M.lat]
        rw [if_neg (by omega)]
        show ((mkLat L A.V).getSite k >>= _) = _
        rw [getSite_mk hkl]
        show (pyAssert (decide (A.V.sg k = -1)) >>= _) = _
        rw [show decide (A.V.sg k = -1) = false by simpa using hu]; rfl
      have he : S.placeOneSite env v d = .error .assertionError := by
        simp only [Perc.placeOneSite]
        rw [selectSite_plain hv, hs]; rfl
      refine ⟨he, ?_⟩
      have g : (match S.siteIds[S.currentIdx]? with
          | some k => (match S.lat.getSite k with
            | .ok _ => { S with selected := some k }
            | .error _ => S)
          | none => S) = { S with selected := some k } := by
        have hg : S.lat.getSite k = .ok (mkSite L A.V k) := by rw [M.lat, getSite_mk hkl]
        rw [hk]
        show (match S.lat.getSite k with
            | .ok _ => { S with selected := some k }
            | .error _ => S) = { S with selected := some k }
        rw [hg]
      cases v with
      | l0 => exact g
      | sp => exact g
      | l1 => cases hv
      | l2 => cases hv
    · left
      refine ⟨hi, k, hk, ho, ?_⟩
      have hs := selectL0_ok M.lat hi hk hkl ((not_occ_iff M I hkl).1 ho)
      rw [← selectSite_plain (v := v) (d := d) hv] at hs
      obtain ⟨S', h1, h2, h3⟩ := placeOneSite_of_select M I hs
      exact ⟨S', h1, h2, h3.selected, h3.siteIds, h3.currentIdx⟩
  · left
    refine ⟨by omega, ?_⟩
    simp only [Perc.placeOneSite]
    rw [selectSite_plain hv, selectL0_end (by omega)]
    rfl

/-- A run of a plain class that raises: it has placed and recorded the entries of the list up to one that is already occupied. -/
theorem Trace.run_raised (hv : v.plain = true) (fuel : Nat) : ∀ {ds : Nat → Draw} {S : Perc α} {seq : List Nat} {e : PyErr}, Trace env v L S seq →
    S.siteIds.length = S.maxIter → (∀ k ∈ S.siteIds, k < L * L) → Perc.runLoop env v fuel ds S = .error e → e ≠ .outOfFuel →
    e = .assertionError ∧ ∃ n k, S.siteIds[S.currentIdx + n]? = some k ∧ k ∈ seq ++ (S.siteIds.drop S.currentIdx).take n ∧
      ((S.siteIds.drop S.currentIdx).take n).length = n ∧
      Trace env v L (S.runRaised env v fuel ds) (seq ++ (S.siteIds.drop S.currentIdx).take n) ∧
      Collected env v L S (S.runRaised env v fuel ds) seq ((S.siteIds.drop S.currentIdx).take n) ∧
      (S.runRaised env v fuel ds).siteIds = S.siteIds ∧ (S.runRaised env v fuel ds).currentIdx = S.currentIdx + n ∧
      (S.runRaised env v fuel ds).selected = some k := by
  induction fuel with
  | zero => intro ds S seq e _ _ _ h he; exact absurd (Except.error.inj h).symm he
  | succ fuel ih =>
    intro ds S seq e T hz hlt h he
    simp only [Perc.runLoop] at h
    obtain ⟨_, A, M, hA, _⟩ := T.sim
    rcases place_plain M hA.inv hv hz hlt (ds 0) with ⟨_, hp⟩ | ⟨hi, k, hk, ho, S1, hp, hf, hsel, hids, hidx⟩ | ⟨hi, k, hk, ho, hp, hr⟩
    · rw [hp] at h; cases h
    · rw [hp] at h
      have haux := (placeOneSite_sim M hA.inv hp).1
      obtain ⟨A1, hst, M1⟩ := placeOneSite_steps M hA.inv hp
      obtain ⟨S2, w, hd⟩ := detectWrapping_ok M1 (hA.inv.steps hst) (by rw [hsel]; simp)
      obtain ⟨k', hk1, _, T2⟩ := T.place hp hf hd
      obtain rfl : k' = k := Option.some.inj (hk1.symm.trans hsel)
      obtain ⟨haux2, _⟩ := detectWrapping_steps M1 (hA.inv.steps hst) hd
      have K2 := (detectWrapping_keep M1 (hA.inv.steps hst) hd).1
      obtain ⟨_, A2, M2, hA2, _⟩ := T2.sim
      obtain ⟨S3, hr3⟩ := record_progress M2 hA2
      replace h : (if S1.selectionFlag = some .success then _ else _) = _ := h
      rw [if_pos hf, hd] at h
      replace h : (S2.record env >>= _) = _ := h
      rw [hr3] at h
      have f3 : S3.siteIds = S2.siteIds ∧ S3.currentIdx = S2.currentIdx ∧ S3.maxIter = S2.maxIter := by
        obtain ⟨p, _, rfl⟩ := record_ok hr3; exact ⟨rfl, rfl, rfl⟩
      have e1 : S3.siteIds = S.siteIds := f3.1.trans (K2.siteIds.trans hids)
      have e2 : S3.currentIdx = S.currentIdx + 1 := f3.2.1.trans (K2.currentIdx.trans hidx)
      have e3 : S3.maxIter = S.maxIter := f3.2.2.trans (haux2.maxIter.trans haux.maxIter)
      have er : S.runRaised env v (fuel + 1) ds = S3.runRaised env v fuel (fun i => ds (i + 1)) := by
        rw [Perc.runRaised, hp]
        show (if S1.selectionFlag = some .success then _ else _) = _
        rw [if_pos hf, hd]
        show (match S2.record env with
          | .error _ => S2
          | .ok S => Perc.runRaised env v fuel (fun i => ds (i + 1)) S) = _
        rw [hr3]
      obtain ⟨g1, n, j, g2, g3, g4, g5, g6, g7, g8, g9⟩ := ih (T2.record hr3) (by rw [e1, e3]; exact hz) (by rw [e1]; exact hlt) h he
      rw [e1, e2] at g2 g3 g4 g5 g6
      rw [e1] at g7
      rw [e2] at g8
      have hl : S.currentIdx < S.siteIds.length := (List.getElem?_eq_some_iff.1 hk).1
      have ed : S.siteIds.drop S.currentIdx = k' :: S.siteIds.drop (S.currentIdx + 1) := by
        rw [List.drop_eq_getElem_cons hl, (List.getElem?_eq_some_iff.1 hk).2]
      rw [er]
      refine ⟨g1, n + 1, j, ?_, ?_, ?_, ?_, ?_, g7, ?_, g9⟩
      · rw [← g2]; congr 1; omega
      · rw [ed]; simpa using g3
      · rw [ed, List.take_succ_cons, List.length_cons, g4]
      · rw [ed]; simpa using g5
      · rw [ed, List.take_succ_cons]
        exact g6.cons (haux.trans haux2) T2 hr3
      · rw [g8]; omega
    · rw [hp] at h
      have er : S.runRaised env v (fuel + 1) ds = { S with selected := some k } := by
        rw [Perc.runRaised, hp]; exact hr
      have Tr := T.raised hp
      rw [hr] at Tr
      rw [er]
      refine ⟨(Except.error.inj h).symm, 0, k, hk, ?_, by simp, by simpa using Tr, ?_, rfl, rfl, rfl⟩
      · simp only [List.take_zero, List.append_nil]
        exact (T.reports.occ k).1 ho
      · simp only [List.take_zero]
        exact .nil rfl rfl rfl rfl rfl

/-! ### Placements of L1 and L2 -/

/-- L1 and L2 raise exactly when the list has run out before all sites have been visited. -/
theorem place_l1l2 (M : Sim env L S A) (I : AInv L A) (hv : v.plain = false) (hc : CntOk L S) (hlt : ∀ k ∈ S.siteIds, k < L * L) (d : Draw) :
    (S.currentIdx < L * L ∧ S.siteIds.length ≤ S.currentIdx ∧ S.placeOneSite env v d = .error .valueError) ∨
    (¬ (S.currentIdx < L * L ∧ S.siteIds.length ≤ S.currentIdx) ∧ ∃ r, S.placeOneSite env v d = .ok r) := by
  have hc := (cntOk_iff M.lat).1 hc
  have fin : ∀ {r : Perc α × SelectionState}, S.selectSite v d = .ok r → ∃ r, S.placeOneSite env v d = .ok r := fun {r} h => by
    obtain ⟨S', h1, _⟩ := placeOneSite_of_select M I (S1 := r.1) (flag := r.2) h
    exact ⟨_, h1⟩
  by_cases h1 : S.currentIdx < L * L
  · by_cases h2 : S.currentIdx < S.siteIds.length
    · right
      refine ⟨by omega, ?_⟩
      have hr : S.currentIdx + d.a % (S.siteIds.length - S.currentIdx) < S.siteIds.length := by
        have := Nat.mod_lt d.a (show 0 < S.siteIds.length - S.currentIdx by omega)
        omega
      obtain ⟨x, hx⟩ : ∃ x, S.siteIds[S.currentIdx + d.a % (S.siteIds.length - S.currentIdx)]? = some x := ⟨_, List.getElem?_eq_getElem hr⟩
      have hxl := hlt x (List.mem_of_getElem? hx)
      have neg : ∀ {y}, y < L * L → ¬ 0 ≤ A.V.sg y → A.V.sg y = -1 := fun hy h => (I.core.sgr _ hy).resolve_right fun g => h g.1
      have hn := nbr_lt hxl (dirOf d.b)
      obtain ⟨_, hzl⟩ := siteBeyond_mk (V := A.V) hxl hn
      cases v with
      | l0 => cases hv
      | sp => cases hv
      | l1 =>
        have e := selectL1_eq M.lat d h1 h2 rfl hx hxl
        rw [if_neg (show ¬ A.V.n1 x < 0 by have := (hc x hxl).1; omega)] at e
        split at e
        · split at e
          · exact fin e
          · next h => exact fin (e.trans (finishSelect_ok (V := A.V) (by exact M.lat) hn (neg hn h)))
        · next h => exact fin (e.trans (finishSelect_ok (V := A.V) (by exact M.lat) hxl (neg hxl h)))
      | l2 =>
        have e := selectL2_eq M.lat d h1 h2 rfl hx hxl
        rw [if_neg (show ¬ A.V.n1 x < 0 by have := (hc x hxl).1; omega)] at e
        rw [if_neg (show ¬ A.V.n2 x < 0 by have := (hc x hxl).2; omega)] at e
        split at e
        · split at e
          · split at e
            · exact fin e
            · next h => rw [finishSelect_ok (V := { A.V with n1 := upd A.V.n1 x (dec (A.V.n1 x)) }) rfl hzl (neg hzl h)] at e; exact fin e
          · next h => exact fin (e.trans (finishSelect_ok (V := A.V) (by exact M.lat) hn (neg hn h)))
        · next h => exact fin (e.trans (finishSelect_ok (V := A.V) (by exact M.lat) hxl (neg hxl h)))
    · left
      refine ⟨h1, by omega, ?_⟩
      have hr : randint S.currentIdx S.siteIds.length d.a = .error .valueError := by unfold randint; rw [if_pos (by omega)]
      cases v with
      | l0 => cases hv
      | sp => cases hv
      | l1 =>
        simp only [Perc.placeOneSite, Perc.selectSite, Perc.selectL1, M.lat, mkLat_siteCount]
        rw [if_neg (by omega), hr]; rfl
      | l2 =>
        simp only [Perc.placeOneSite, Perc.selectSite, Perc.selectL2, M.lat, mkLat_siteCount]
        rw [if_neg (by omega), hr]; rfl
  · right
    refine ⟨fun h => h1 h.1, ?_⟩
    cases v with
    | l0 => cases hv
    | sp => cases hv
    | l1 =>
      refine fin (r := (S, .emptySiteList)) ?_
      simp only [Perc.selectSite, Perc.selectL1, M.lat, mkLat_siteCount]
      rw [if_pos (by omega)]
    | l2 =>
      refine fin (r := (S, .emptySiteList)) ?_
      simp only [Perc.selectSite, Perc.selectL2, M.lat, mkLat_siteCount]
      rw [if_pos (by omega)]

end SqPerc
