import Verif.Proof.Frame
/-
Site orders: ids stay in range in every history, the calls that change the order never raise, and custom lists are worked through.
-/
namespace SqPerc

variable {α : Type} {L : Nat} {env : Env α} {v : Variant} {S S1 S' : Perc α} {A : Abs α} {d : Draw}

theorem mem_dropAt {rnd k : Nat} (hc : S.currentIdx < S.siteIds.length) (h : k ∈ dropAt S rnd) : k ∈ S.siteIds := by
  rcases mem_set_of h with h | rfl
  · exact h
  · rw [List.getElem?_eq_getElem hc]; exact List.getElem_mem hc

theorem selectL0_siteIds {f : SelectionState} (h : S.selectL0 = .ok (S1, f)) : S1.siteIds = S.siteIds := by
  simp only [Perc.selectL0] at h
  split at h
  · rw [← (Prod.mk.inj (Except.ok.inj h)).1]
  · cases h1 : pyGet S.siteIds S.currentIdx with
    | error e => rw [h1] at h; cases h
    | ok k =>
      rw [h1] at h
      replace h : (S.lat.getSite k >>= _) = _ := h
      cases h2 : S.lat.getSite k with
      | error e => rw [h2] at h; cases h
      | ok st =>
        rw [h2] at h
        replace h : (pyAssert _ >>= _) = _ := h
        cases h3 : pyAssert (decide (st.gid = -1)) with
        | error e => rw [h3] at h; cases h
        | ok u => rw [h3] at h; rw [← (Prod.mk.inj (Except.ok.inj h)).1]

/-- Selection takes no new ids into the list. -/
theorem selectSite_ids {f : SelectionState} (M : Sim env L S A) (h : S.selectSite v d = .ok (S1, f)) :
    ∀ k ∈ S1.siteIds, k ∈ S.siteIds := by
  intro k hk
  have plain : S.selectL0 = .ok (S1, f) → S1.siteIds = S.siteIds := selectL0_siteIds
  have fin : ∀ {T T' : Perc α} {j : Nat}, T.finishSelect j = .ok (T', f) → T'.siteIds = T.siteIds := fun h => (finishSelect_fields h).2.2.2.2.2.2.1
  cases v with
  | l0 => rw [← plain h]; exact hk
  | sp => rw [← plain h]; exact hk
  | l1 =>
    simp only [Perc.selectSite] at h
    rcases selectL1_inv M.lat h with ⟨_, h1⟩ | ⟨h1, h2, x, hx, hxl⟩
    · rw [(Prod.mk.inj h1).1] at hk; exact hk
    · rw [selectL1_eq M.lat d h1 h2 rfl hx hxl] at h
      split at h
      · split at h
        · split at h
          · cases h
          · rw [← (Prod.mk.inj (Except.ok.inj h)).1] at hk
            simp only [l1Fail] at hk
            split at hk
            · exact mem_dropAt h2 hk
            · exact hk
        · rw [fin h] at hk; exact hk
      · rw [fin h] at hk; exact hk
  | l2 =>
    simp only [Perc.selectSite] at h
    rcases selectL2_inv M.lat h with ⟨_, h1⟩ | ⟨h1, h2, x, hx, hxl⟩
    · rw [(Prod.mk.inj h1).1] at hk; exact hk
    · rw [selectL2_eq M.lat d h1 h2 rfl hx hxl] at h
      split at h
      · split at h
        · split at h
          · cases h
          · split at h
            · split at h
              · cases h
              · rw [← (Prod.mk.inj (Except.ok.inj h)).1] at hk
                simp only [l2Fail] at hk
                split at hk
                · exact mem_dropAt h2 hk
                · exact hk
            · rw [fin h] at hk; exact hk
        · rw [fin h] at hk; exact hk
      · rw [fin h] at hk; exact hk

/-- `reset` keeps the ids in range. -/
theorem reset_ids {draws : Nat → Nat} (M : Sim env L S A) (q : (∀ k ∈ S.siteIds, k < L * L) ∧ S.revIds.length = L * L)
    (h : S.reset env v draws = .ok S') : (∀ k ∈ S'.siteIds, k < L * L) ∧ S'.revIds.length = L * L := by
  simp only [Perc.reset] at h
  cases hb : S.resetBase draws with
  | error e => rw [hb] at h; cases h
  | ok S1 =>
    rw [hb] at h
    have q1 : ((∀ k ∈ S1.siteIds, k < L * L) ∧ S1.revIds.length = L * L) ∧ S1.lat.length = L := by
      simp only [Perc.resetBase, M.lat, reset_mk] at hb
      rw [initClusters_mk] at hb
      replace hb : (Perc.shuffle _ draws >>= _) = _ := hb
      cases hs : Perc.shuffle { S with
          lat := mkLat L LV.init
          pool := mkPool (2 * (L * L)) (PV.init (2 * (L * L)))
          pcBonds := none, pcSites := none } draws with
      | error e => rw [hs] at hb; cases hb
      | ok S2 =>
        rw [hs] at hb
        obtain ⟨ids, rev, rfl, hp, hr, _⟩ := shuffle_perm (L := L) hs
        rw [← Except.ok.inj hb]
        exact ⟨⟨fun k hk => q.1 k (hp.mem_iff.1 hk), hr.trans q.2⟩, rfl⟩
    have hr : ∀ k ∈ List.range (S1.lat.length ^ 2), k < L * L := by
      intro k hk
      have := List.mem_range.1 hk
      rw [q1.2, Nat.pow_two] at this
      exact this
    cases v <;> (have h := (Except.ok.inj h).symm; subst h)
    · exact q1.1
    · exact ⟨hr, q1.1.2⟩
    · exact ⟨hr, q1.1.2⟩
    · exact q1.1

/-- In every history the ids in the site order are sites, and the reverse index has `L²` entries. -/
theorem Reach.ids (h : Reach env v L S) : (∀ k ∈ S.siteIds, k < L * L) ∧ S.revIds.length = L * L := by
  refine Reach.induct (fun S => (∀ k ∈ S.siteIds, k < L * L) ∧ S.revIds.length = L * L) ?_ ?_ ?_ ?_ ?_ ?_ ?_ ?_ h
  · intro draws S h
    obtain ⟨_, rev, rfl, h2, _⟩ := new_inv h
    refine ⟨fun k hk => ?_, h2⟩
    exact List.mem_range.1 ((pyShuffle_perm _ _).mem_iff.1 hk)
  · intro S S' A d b M hA q h
    obtain ⟨S1, f, h1, _, _, K⟩ := placeOneSite_select M hA.inv h
    refine ⟨fun k hk => q.1 k (selectSite_ids M h1 k (by rw [← K.siteIds]; exact hk)), ?_⟩
    rw [(placeOneSite_sim M hA.inv h).1.rev]; exact q.2
  · intro S S' A w M hA q h
    rcases detectWrapping_sim M hA.inv h with ⟨_, rfl, _⟩ | ⟨_, k, _, ⟨_, rfl, _⟩ | ⟨_, _, _, rfl⟩⟩ <;> exact q
  · intro S S' A draws M hA q h
    exact reset_ids M q h
  · intro S fr l1 l2 l3 l4 q; exact q
  · intro hv S p q; exact q
  · intro S ids rev mc ds mi hk q; exact ⟨hk.lt q.1 q.2, hk.len.trans q.2⟩
  · intro _ S A k _ _ _ _ _ q; exact q

/-- Plain classes, as long as no custom list is set: the site order is a permutation of all sites and the reverse index is its inverse. -/
theorem Reach.order (h : Reach env v L S) (hv : v.plain = true) (hm : S.modeCustom = false) :
    S.doShuffle = true ∧ S.maxIter = L * L ∧ S.siteIds.Perm (List.range (L * L)) ∧ Inverse S.siteIds S.revIds := by
  refine (Reach.induct (fun S => ((∀ k ∈ S.siteIds, k < L * L) ∧ S.revIds.length = L * L) ∧ (S.modeCustom = false →
    S.doShuffle = true ∧ S.maxIter = L * L ∧ S.siteIds.Perm (List.range (L * L)) ∧ Inverse S.siteIds S.revIds)) ?_ ?_ ?_ ?_ ?_ ?_ ?_ ?_ h).2 hm
  · intro draws S h
    refine ⟨(Reach.new (v := v) h).ids, ?_⟩
    obtain ⟨_, rev, rfl, h2, h3⟩ := new_inv h
    exact fun _ => ⟨rfl, rfl, pyShuffle_perm _ _, h3⟩
  · intro S S' A d b M hA q h
    obtain ⟨S1, f, h1, _, _, K⟩ := placeOneSite_select M hA.inv h
    have X := (placeOneSite_sim M hA.inv h).1
    refine ⟨⟨fun k hk => q.1.1 k (selectSite_ids M h1 k (by rw [← K.siteIds]; exact hk)), by rw [X.rev]; exact q.1.2⟩, fun hm => ?_⟩
    have e : S1.siteIds = S.siteIds := by
      rw [selectSite_plain hv] at h1
      exact selectL0_siteIds h1
    rw [X.custom] at hm
    rw [X.doSh, X.maxIter, K.siteIds, e, X.rev]
    exact q.2 hm
  · intro S S' A w M hA q h
    rcases detectWrapping_sim M hA.inv h with ⟨_, rfl, _⟩ | ⟨_, k, _, ⟨_, rfl, _⟩ | ⟨_, _, _, rfl⟩⟩ <;> exact q
  · intro S S' A draws M hA q h
    refine ⟨reset_ids M q.1 h, ?_⟩
    · simp only [Perc.reset] at h
      cases hb : S.resetBase draws with
      | error e => rw [hb] at h; cases h
      | ok S1 =>
        rw [hb] at h
        intro hm
        have hm0 : S.modeCustom = false := by
          obtain ⟨ids, rev, rfl⟩ := resetBase_ok M.lat hb
          cases v <;> (have h := (Except.ok.inj h).symm; subst h) <;> exact hm
        obtain ⟨g1, g2, g3, g4⟩ := q.2 hm0
        obtain ⟨rev, e, e1, e2⟩ := resetBase_default M.lat g1 (by intro k hk; rw [q.1.2]; exact q.1.1 k hk) draws
        rw [hb] at e
        have e := Except.ok.inj e
        subst e
        have : (pyShuffle draws S.siteIds).Perm (List.range (L * L)) := (pyShuffle_perm _ _).trans g3
        cases v with
        | l0 => have h := (Except.ok.inj h).symm; subst h; exact ⟨g1, g2, this, e2 (g3.nodup_iff.2 List.nodup_range)⟩
        | sp => have h := (Except.ok.inj h).symm; subst h; exact ⟨g1, g2, this, e2 (g3.nodup_iff.2 List.nodup_range)⟩
        | l1 => cases hv
        | l2 => cases hv
  · intro S fr l1 l2 l3 l4 q; exact q
  · intro hv S p q; exact q
  · intro S ids rev mc ds mi hk q
    refine ⟨⟨hk.lt q.1.1 q.1.2, hk.len.trans q.1.2⟩, fun hm => ?_⟩
    obtain ⟨k1, k2, k3, k4⟩ := hk.inv hm
    obtain ⟨g1, g2, g3, g4⟩ := q.2 k1
    obtain ⟨z1, z2⟩ := k4 g3 g4 q.1.2
    exact ⟨k2.trans g1, k3.trans g2, z1.trans g3, z2⟩
  · intro _ S A k _ _ _ _ _ q; exact q

/-- `shuffle` raises nothing when the ids are in range. -/
theorem shuffle_total (h : ∀ k ∈ S.siteIds, k < S.revIds.length) (draws : Nat → Nat) : ∃ S', S.shuffle draws = .ok S' := by
  cases hd : S.doShuffle with
  | true => obtain ⟨rev, h1, _⟩ := shuffle_default hd h draws; exact ⟨_, h1⟩
  | false => exact ⟨S, shuffle_off hd draws⟩

/-- `reset` never raises. -/
theorem Reach.reset_total (h : Reach env v L S) (draws : Nat → Nat) : ∃ S', S.reset env v draws = .ok S' := by
  obtain ⟨_, A, M, hA⟩ := h.sim
  obtain ⟨h1, h2⟩ := h.ids
  obtain ⟨S1, hs⟩ := shuffle_total (S := { S with lat := mkLat L LV.init, pool := mkPool (2 * (L * L)) (PV.init (2 * (L * L))), pcBonds := none, pcSites := none })
    (by intro k hk; show k < S.revIds.length; rw [h2]; exact h1 k hk) draws
  have hb : ∃ S2, S.resetBase draws = .ok S2 := by
    simp only [Perc.resetBase, M.lat, reset_mk]
    rw [initClusters_mk]
    show ∃ S2, (Perc.shuffle { S with lat := mkLat L LV.init, pool := mkPool (2 * (L * L)) (PV.init (2 * (L * L))), pcBonds := none, pcSites := none } draws >>= _) = _
    rw [hs]
    exact ⟨_, rfl⟩
  obtain ⟨S2, hb⟩ := hb
  simp only [Perc.reset]
  rw [hb]
  cases v <;> exact ⟨_, rfl⟩

/-! ### Custom lists -/

/-- States with nothing placed: just constructed, or just reset after any history. -/
inductive Start (env : Env α) (v : Variant) (L : Nat) : Perc α → Prop
  | new {draws : Nat → Nat} {S : Perc α} : Perc.new env L draws = .ok S → Start env v L S
  | reset {draws : Nat → Nat} {S S' : Perc α} : Reach env v L S → S.reset env v draws = .ok S' → Start env v L S'

theorem Start.reach (h : Start env v L S) : Reach env v L S := by
  cases h with
  | new h => exact .new h
  | reset h hr => exact .step (.reset _) h hr

theorem Start.trace (h : Start env v L S) : Trace env v L S [] := by
  cases h with
  | new h => exact .new h
  | reset h hr => exact .start h hr

theorem Start.zero (h : Start env v L S) : S.currentIdx = 0 ∧ (∀ s, ¬ S.Occ s) ∧ S.afterWrapping = false := by
  have hocc : ∀ s, ¬ S.Occ s := fun s hs => by have := (h.trace.reports.occ s).1 hs; simp at this
  cases h with
  | new h =>
    obtain ⟨_, rev, rfl, _⟩ := new_inv h
    exact ⟨rfl, hocc, rfl⟩
  | reset h hr =>
    obtain ⟨_, A, M, _⟩ := h.sim
    simp only [Perc.reset] at hr
    cases hb : Perc.resetBase _ _ with
    | error e => rw [hb] at hr; cases hr
    | ok S1 =>
      rw [hb] at hr
      obtain ⟨ids, rev, rfl⟩ := resetBase_ok M.lat hb
      cases v <;> (have hr := (Except.ok.inj hr).symm; subst hr) <;> exact ⟨rfl, hocc, rfl⟩

/-- A valid list without shuffling. -/
theorem setIds_off {ids : List Int} (M : Sim env L S A) (hne : ids ≠ []) (hids : ∀ i ∈ ids, 0 ≤ i ∧ i < (L : Int) * L) (draws : Nat → Nat) :
    S.setCustomIds ids false draws = .ok { S with siteIds := ids.map Int.toNat, modeCustom := true, doShuffle := false, maxIter := ids.length } := by
  simp only [Perc.setCustomIds]
  rw [if_neg (by simpa using hne), show S.lat.length = L by rw [M.lat]; rfl, (badIds_iff hne).2 hids]
  exact shuffle_off (S := { S with siteIds := ids.map Int.toNat, modeCustom := true, doShuffle := false, maxIter := ids.length }) rfl draws

/-- A valid list with shuffling. -/
theorem setIds_on {ids : List Int} (h : Reach env v L S) (hne : ids ≠ []) (hids : ∀ i ∈ ids, 0 ≤ i ∧ i < (L : Int) * L) (draws : Nat → Nat) :
    ∃ rev, S.setCustomIds ids true draws = .ok { S with
      siteIds := pyShuffle draws (ids.map Int.toNat)
      revIds := rev, modeCustom := true, doShuffle := true, maxIter := ids.length } ∧ ((ids.map Int.toNat).Nodup → Inverse (pyShuffle draws (ids.map Int.toNat)) rev) := by
  obtain ⟨_, A, M, hA⟩ := h.sim
  simp only [Perc.setCustomIds]
  rw [if_neg (by simpa using hne), show S.lat.length = L by rw [M.lat]; rfl, (badIds_iff hne).2 hids]
  obtain ⟨rev, h1, _, h3⟩ := shuffle_default (S := { S with siteIds := ids.map Int.toNat, modeCustom := true, doShuffle := true, maxIter := ids.length }) rfl
    (by
      intro k hk
      show k < S.revIds.length
      rw [h.ids.2]
      obtain ⟨i, hi, rfl⟩ := List.mem_map.1 hk
      have := hids i hi
      omega) draws
  exact ⟨rev, h1, h3⟩

/-- After `set_custome_site_id_list` an object with nothing placed works through the list. -/
theorem Start.setIds {ids : List Int} (h : Start env v L S) (hne : ids ≠ []) (hids : ∀ i ∈ ids, 0 ≤ i ∧ i < (L : Int) * L) (draws : Nat → Nat) :
    ∃ S', S.setCustomIds ids false draws = .ok S' ∧ L0Ready L S' (ids.map Int.toNat) 0 ∧ Trace env v L S' [] ∧ S'.afterWrapping = false := by
  obtain ⟨_, A, M, hA⟩ := h.reach.sim
  have e := setIds_off M hne hids draws
  obtain ⟨h0, h1, h2⟩ := h.zero
  refine ⟨_, e, ⟨rfl, by simp, h0, Nat.zero_le _, ?_, fun s => ⟨fun h => absurd h (h1 s), fun h => by simp at h⟩⟩, h.trace.setIds e, h2⟩
  intro k hk
  obtain ⟨i, hi, rfl⟩ := List.mem_map.1 hk
  have := hids i hi
  omega

theorem Trace.reachable {seq : List Nat} (T : Trace env v L S seq) : ∃ A, Sim env L S A ∧ AReach env L A := by
  obtain ⟨_, A, M, hA, _⟩ := T.sim; exact ⟨A, M, hA⟩

end SqPerc
