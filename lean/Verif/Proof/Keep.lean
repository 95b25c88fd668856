import Verif.Proof.Raise
/-
What the calls do to the list of site ids and to the shuffle mode.
-/
namespace SqPerc

variable {α : Type} {L : Nat} {env : Env α} {v : Variant} {S S1 S' T : Perc α} {A : Abs α} {d : Draw}

/-- The mode is the same, and so is the list of site ids in the plain classes; L1 and L2 may have overwritten entries of the list. -/
structure Kept (v : Variant) (S T : Perc α) : Prop where
  mode : T.modeCustom = S.modeCustom
  doSh : T.doShuffle = S.doShuffle
  len : T.siteIds.length = S.siteIds.length
  mem : ∀ k ∈ T.siteIds, k ∈ S.siteIds
  plain : v.plain = true → T.siteIds = S.siteIds

theorem Kept.refl (v : Variant) (S : Perc α) : Kept v S S := ⟨rfl, rfl, rfl, fun _ h => h, fun _ => rfl⟩

theorem Kept.trans {U : Perc α} (h : Kept v S T) (g : Kept v T U) : Kept v S U :=
  ⟨g.mode.trans h.mode, g.doSh.trans h.doSh, g.len.trans h.len, fun k hk => h.mem k (g.mem k hk), fun hv => (g.plain hv).trans (h.plain hv)⟩

/-- Selection keeps the length of the list. -/
theorem selectSite_length {f : SelectionState} (M : Sim env L S A) (h : S.selectSite v d = .ok (S1, f)) : S1.siteIds.length = S.siteIds.length := by
  have plain : S.selectL0 = .ok (S1, f) → S1.siteIds = S.siteIds := selectL0_siteIds
  have fin : ∀ {T T' : Perc α} {j : Nat}, T.finishSelect j = .ok (T', f) → T'.siteIds = T.siteIds := fun h => (finishSelect_fields h).2.2.2.2.2.2.1
  cases v with
  | l0 => rw [plain h]
  | sp => rw [plain h]
  | l1 =>
    simp only [Perc.selectSite] at h
    rcases selectL1_inv M.lat h with ⟨_, h1⟩ | ⟨h1, h2, x, hx, hxl⟩
    · rw [(Prod.mk.inj h1).1]
    · rw [selectL1_eq M.lat d h1 h2 rfl hx hxl] at h
      split at h
      · split at h
        · split at h
          · cases h
          · rw [← (Prod.mk.inj (Except.ok.inj h)).1]
            simp only [l1Fail]
            split
            · exact List.length_set
            · rfl
        · rw [fin h]
      · rw [fin h]
  | l2 =>
    simp only [Perc.selectSite] at h
    rcases selectL2_inv M.lat h with ⟨_, h1⟩ | ⟨h1, h2, x, hx, hxl⟩
    · rw [(Prod.mk.inj h1).1]
    · rw [selectL2_eq M.lat d h1 h2 rfl hx hxl] at h
      split at h
      · split at h
        · split at h
          · cases h
          · split at h
            · split at h
              · cases h
              · rw [← (Prod.mk.inj (Except.ok.inj h)).1]
                simp only [l2Fail]
                split
                · exact List.length_set
                · rfl
            · rw [fin h]
        · rw [fin h]
      · rw [fin h]

theorem place_kept {b : Bool} (M : Sim env L S A) (hA : AReach env L A) (h : S.placeOneSite env v d = .ok (S', b)) : Kept v S S' := by
  obtain ⟨S1, f, h1, _, _, K⟩ := placeOneSite_select M hA.inv h
  have X := (placeOneSite_sim M hA.inv h).1
  refine ⟨X.custom, X.doSh, by rw [K.siteIds, selectSite_length M h1], fun k hk => selectSite_ids M h1 k (by rw [← K.siteIds]; exact hk), fun hv => ?_⟩
  rw [selectSite_plain hv] at h1
  rw [K.siteIds, selectL0_siteIds h1]

theorem detect_kept {w : Bool} (M : Sim env L S A) (hA : AReach env L A) (h : S.detectWrapping = .ok (S', w)) : Kept v S S' := by
  rcases detectWrapping_sim M hA.inv h with ⟨_, rfl, _⟩ | ⟨_, k, _, ⟨_, rfl, _⟩ | ⟨_, _, _, rfl⟩⟩ <;> exact ⟨rfl, rfl, rfl, fun _ h => h, fun _ => rfl⟩

/-- The calls that may reorder or replace the list. -/
def Op.orders : Op → Bool
  | .reset _ | .shuffle _ | .setIds _ _ _ | .setIndices _ _ _ | .swapIds _ _ => true
  | _ => false

/-- Every other call keeps mode and list, whether it returns … -/
theorem step_kept {op : Op} (h : Reach env v L S) (ho : op.orders = false) (hs : SqPerc.step env v S op = .ok S') : Kept v S S' := by
  have hp : ∀ {T T' : Perc α} {d : Draw} {b : Bool}, (Kept v S T ∧ ∃ A, Sim env L T A ∧ AReach env L A) → T.placeOneSite env v d = .ok (T', b) →
      Kept v S T' ∧ ∃ A, Sim env L T' A ∧ AReach env L A := by
    rintro T T' d b ⟨q, A, M, hA⟩ h
    obtain ⟨A', h1, h2⟩ := placeOneSite_steps M hA.inv h
    exact ⟨q.trans (place_kept M hA h), A', h2, hA.steps h1⟩
  have hd : ∀ {T T' : Perc α} {w : Bool}, (Kept v S T ∧ ∃ A, Sim env L T A ∧ AReach env L A) → T.detectWrapping = .ok (T', w) →
      Kept v S T' ∧ ∃ A, Sim env L T' A ∧ AReach env L A := by
    rintro T T' w ⟨q, A, M, hA⟩ h
    obtain ⟨_, _, _, A', h1, h2, _⟩ := detectWrapping_steps M hA.inv h
    exact ⟨q.trans (detect_kept M hA h), A', h2, hA.steps h1⟩
  have hdata : ∀ {T : Perc α} (fr : Bool) (l1 l2 l3 l4 : List α), Kept v S T →
      Kept v S { T with firstRun := fr, occProbList := l1, entropyList := l2, orderWrapList := l3, orderLargestList := l4 } :=
    fun _ _ _ _ _ q => ⟨q.mode, q.doSh, q.len, q.mem, q.plain⟩
  have hr : ∀ {T T' : Perc α}, (Kept v S T ∧ ∃ A, Sim env L T A ∧ AReach env L A) → T.record env = .ok T' → Kept v S T' ∧ ∃ A, Sim env L T' A ∧ AReach env L A := by
    rintro T T' ⟨q, A, M, hA⟩ h
    refine ⟨?_, A, record_sim M h, hA⟩
    obtain ⟨p, _, rfl⟩ := record_ok h
    exact hdata _ _ _ _ _ q
  obtain ⟨_, hS⟩ := h.sim
  have h0 : Kept v S S ∧ ∃ A, Sim env L S A ∧ AReach env L A := ⟨Kept.refl v S, hS⟩
  cases op with
  | place d =>
    simp only [SqPerc.step] at hs
    cases h1 : S.placeOneSite env v d with
    | error e => rw [h1] at hs; cases hs
    | ok r => rw [h1] at hs; rw [← Except.ok.inj hs]; exact (hp (b := r.2) h0 h1).1
  | detect =>
    simp only [SqPerc.step] at hs
    cases h1 : S.detectWrapping with
    | error e => rw [h1] at hs; cases hs
    | ok r => rw [h1] at hs; rw [← Except.ok.inj hs]; exact (hd (w := r.2) h0 h1).1
  | runOnce fuel ds =>
    simp only [SqPerc.step, Perc.runOnceV] at hs
    have gen : ∀ {S'}, S.runOnce env v fuel ds = .ok S' → Kept v S S' := by
      intro S' h
      simp only [Perc.runOnce] at h
      cases h1 : Perc.runLoop env v fuel ds S with
      | error e => rw [h1] at h; cases h
      | ok S1 =>
        rw [h1] at h
        rw [← Except.ok.inj h]
        exact hdata false S1.occProbList S1.entropyList S1.orderWrapList S1.orderLargestList
          (runLoop_ind (fun T => Kept v S T ∧ ∃ A, Sim env L T A ∧ AReach env L A) hp hd hr fuel h0 h1).1
    cases v with
    | sp =>
      simp only [Perc.spRunOnce] at hs
      cases h1 : Perc.spLoop env fuel S with
      | error e => rw [h1] at hs; cases hs
      | ok r =>
        rw [h1] at hs
        rw [← Except.ok.inj hs]
        have := spLoop_ind (fun T => Kept .sp S T ∧ ∃ A, Sim env L T A ∧ AReach env L A) hp hd
          (fun q => ⟨⟨q.1.mode, q.1.doSh, q.1.len, q.1.mem, q.1.plain⟩, by obtain ⟨_, A, M, hA⟩ := q; exact ⟨A, M.aux rfl rfl rfl rfl rfl rfl rfl rfl rfl rfl rfl rfl rfl rfl, hA⟩⟩)
          fuel h0 (S' := r.1) (b := r.2) h1
        exact hdata false r.1.occProbList r.1.entropyList r.1.orderWrapList r.1.orderLargestList this.1
    | l0 => exact gen hs
    | l1 => exact gen hs
    | l2 => exact gen hs
  | testRunOnce fuel ds =>
    simp only [SqPerc.step, Perc.testRunOnce] at hs
    cases h1 : Perc.testRunLoop env v fuel ds S with
    | error e => rw [h1] at hs; cases hs
    | ok S1 =>
      rw [h1] at hs
      rw [← Except.ok.inj hs]
      exact hdata false S1.occProbList S1.entropyList S1.orderWrapList S1.orderLargestList
        (testRunLoop_ind (fun T => Kept v S T ∧ ∃ A, Sim env L T A ∧ AReach env L A) hp hd hr fuel h0 h1).1
  | reset _ => cases ho
  | shuffle _ => cases ho
  | setIds _ _ _ => cases ho
  | setIndices _ _ _ => cases ho
  | swapIds _ _ => cases ho

/-- … or raises. -/
theorem stepRaised_kept {op : Op} {e : PyErr} (h : Reach env v L S) (ho : op.orders = false) (hs : SqPerc.step env v S op = .error e) :
    Kept v S (stepRaised env v S op) := by
  have hp : ∀ {T T' : Perc α} {d : Draw} {b : Bool}, (Kept v S T ∧ ∃ A, Sim env L T A ∧ AReach env L A) → T.placeOneSite env v d = .ok (T', b) →
      Kept v S T' ∧ ∃ A, Sim env L T' A ∧ AReach env L A := by
    rintro T T' d b ⟨q, A, M, hA⟩ h
    obtain ⟨A', h1, h2⟩ := placeOneSite_steps M hA.inv h
    exact ⟨q.trans (place_kept M hA h), A', h2, hA.steps h1⟩
  have hd : ∀ {T T' : Perc α} {w : Bool}, (Kept v S T ∧ ∃ A, Sim env L T A ∧ AReach env L A) → T.detectWrapping = .ok (T', w) →
      Kept v S T' ∧ ∃ A, Sim env L T' A ∧ AReach env L A := by
    rintro T T' w ⟨q, A, M, hA⟩ h
    obtain ⟨_, _, _, A', h1, h2, _⟩ := detectWrapping_steps M hA.inv h
    exact ⟨q.trans (detect_kept M hA h), A', h2, hA.steps h1⟩
  have hr : ∀ {T T' : Perc α}, (Kept v S T ∧ ∃ A, Sim env L T A ∧ AReach env L A) → T.record env = .ok T' → Kept v S T' ∧ ∃ A, Sim env L T' A ∧ AReach env L A := by
    rintro T T' ⟨q, A, M, hA⟩ h
    refine ⟨?_, A, record_sim M h, hA⟩
    obtain ⟨p, _, rfl⟩ := record_ok h
    exact ⟨q.mode, q.doSh, q.len, q.mem, q.plain⟩
  refine (stepRaised_ind (fun T => Kept v S T ∧ ∃ A, Sim env L T A ∧ AReach env L A) hp ?_ hd hr ?_ ⟨Kept.refl v S, h.sim.2⟩ hs).1
  · rintro T d e ⟨q, A, M, hA⟩ he
    obtain ⟨A', h1, h2⟩ := placeRaised_steps M hA.inv he
    refine ⟨?_, A', h2, hA.steps h1⟩
    rcases placeRaised_cases M hA.inv he with h | ⟨k, hv, _, hk, hkl, h0, h⟩
    · rw [h]; exact q
    · rw [h]; exact ⟨q.mode, q.doSh, q.len, q.mem, q.plain⟩
  · rintro T i j e hop
    subst hop
    cases ho

/-- `shuffle` permutes the list if shuffling is on and does nothing otherwise. -/
theorem shuffle_kept {draws : Nat → Nat} (h : S.shuffle draws = .ok S') : S'.modeCustom = S.modeCustom ∧ S'.doShuffle = S.doShuffle ∧
    S'.siteIds.Perm S.siteIds ∧ (S.doShuffle = false → S'.siteIds = S.siteIds) := by
  cases hd : S.doShuffle with
  | false => rw [shuffle_off hd draws] at h; rw [← Except.ok.inj h]; exact ⟨rfl, hd, .refl _, fun _ => rfl⟩
  | true =>
    obtain ⟨ids, rev, rfl, hp, _⟩ := shuffle_perm (L := 0) h
    exact ⟨rfl, hd, hp, fun h => (by cases h)⟩

/-- So does the common part of `reset`. -/
theorem resetBase_kept {draws : Nat → Nat} (h : S.resetBase draws = .ok S') : S'.modeCustom = S.modeCustom ∧ S'.doShuffle = S.doShuffle ∧
    S'.siteIds.Perm S.siteIds ∧ (S.doShuffle = false → S'.siteIds = S.siteIds) := by
  simp only [Perc.resetBase] at h
  cases hi : initClusters S.lat.reset with
  | error e => rw [hi] at h; cases h
  | ok pl =>
    rw [hi] at h
    replace h : (Perc.shuffle _ draws >>= _) = _ := h
    cases hs : Perc.shuffle { S with lat := pl.2, pool := pl.1, pcBonds := none, pcSites := none } draws with
    | error e => rw [hs] at h; cases h
    | ok S2 =>
      rw [hs] at h
      rw [← Except.ok.inj h]
      have := shuffle_kept hs
      exact this

end SqPerc
