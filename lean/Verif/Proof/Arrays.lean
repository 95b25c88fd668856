import Verif.Model.Arrays
import Verif.Proof.Frame
/-
What a call does to the result lists: everything but `reset` only appends to them.
-/
namespace SqPerc

variable {α : Type} {L : Nat} {env : Env α} {v : Variant} {S S' : Perc α}

/-- The result lists have been extended; the occupation probabilities only before the end of the first run. -/
structure Extended (S S' : Perc α) : Prop where
  prob : S.occProbList <+: S'.occProbList
  ent : S.entropyList <+: S'.entropyList
  wrap : S.orderWrapList <+: S'.orderWrapList
  lrg : S.orderLargestList <+: S'.orderLargestList
  done : S.firstRun = false → S'.firstRun = false ∧ S'.occProbList = S.occProbList

theorem Extended.refl (S : Perc α) : Extended S S :=
  ⟨List.prefix_refl _, List.prefix_refl _, List.prefix_refl _, List.prefix_refl _, fun h => ⟨h, rfl⟩⟩

theorem Extended.trans {S T U : Perc α} (a : Extended S T) (b : Extended T U) : Extended S U :=
  ⟨a.prob.trans b.prob, a.ent.trans b.ent, a.wrap.trans b.wrap, a.lrg.trans b.lrg, fun h =>
    have x := a.done h
    have y := b.done x.1
    ⟨y.1, y.2.trans x.2⟩⟩

/-- Equal lists. -/
theorem Extended.of_eq (h1 : S'.occProbList = S.occProbList) (h2 : S'.entropyList = S.entropyList) (h3 : S'.orderWrapList = S.orderWrapList)
    (h4 : S'.orderLargestList = S.orderLargestList) (h5 : S.firstRun = false → S'.firstRun = false) : Extended S S' :=
  ⟨by rw [h1], by rw [h2], by rw [h3], by rw [h4], fun h => ⟨h5 h, h1⟩⟩

theorem place_grow {A : Abs α} {d : Draw} {b : Bool} (M : Sim env L S A) (hA : AReach env L A) (h : S.placeOneSite env v d = .ok (S', b)) : Extended S S' := by
  have X := (placeOneSite_sim M hA.inv h).1
  exact .of_eq X.occProb X.entList X.owList X.olList fun e => by rw [X.firstRun, e]

theorem detect_grow {A : Abs α} {w : Bool} (M : Sim env L S A) (hA : AReach env L A) (h : S.detectWrapping = .ok (S', w)) : Extended S S' := by
  rcases detectWrapping_sim M hA.inv h with ⟨_, rfl, _⟩ | ⟨_, k, _, ⟨_, rfl, _⟩ | ⟨_, _, _, rfl⟩⟩ <;> exact .of_eq rfl rfl rfl rfl id

theorem record_grow (h : S.record env = .ok S') : Extended S S' := by
  obtain ⟨p, _, rfl⟩ := record_ok h
  refine ⟨?_, List.prefix_append _ _, List.prefix_append _ _, List.prefix_append _ _, fun e => ⟨e, ?_⟩⟩
  · show _ <+: (if S.firstRun then S.occProbList ++ [S.occupationProb env] else S.occProbList)
    split
    · exact List.prefix_append _ _
    · exact List.prefix_refl _
  · show (if S.firstRun then S.occProbList ++ [S.occupationProb env] else S.occProbList) = _
    rw [e]; rfl

/-- Every call but `reset` only appends, whether it returns … -/
theorem step_grow {op : Op} (hS : ∃ A, Sim env L S A ∧ AReach env L A) (ho : op.isReset = false) (hs : SqPerc.step env v S op = .ok S') : Extended S S' := by
  have hp : ∀ {T T' : Perc α} {d : Draw} {b : Bool}, (Extended S T ∧ ∃ A, Sim env L T A ∧ AReach env L A) → T.placeOneSite env v d = .ok (T', b) →
      Extended S T' ∧ ∃ A, Sim env L T' A ∧ AReach env L A := by
    rintro T T' d b ⟨q, A, M, hA⟩ h
    obtain ⟨A', h1, h2⟩ := placeOneSite_steps M hA.inv h
    exact ⟨q.trans (place_grow M hA h), A', h2, hA.steps h1⟩
  have hd : ∀ {T T' : Perc α} {w : Bool}, (Extended S T ∧ ∃ A, Sim env L T A ∧ AReach env L A) → T.detectWrapping = .ok (T', w) →
      Extended S T' ∧ ∃ A, Sim env L T' A ∧ AReach env L A := by
    rintro T T' w ⟨q, A, M, hA⟩ h
    obtain ⟨_, _, _, A', h1, h2, _⟩ := detectWrapping_steps M hA.inv h
    exact ⟨q.trans (detect_grow M hA h), A', h2, hA.steps h1⟩
  have hr : ∀ {T T' : Perc α}, (Extended S T ∧ ∃ A, Sim env L T A ∧ AReach env L A) → T.record env = .ok T' → Extended S T' ∧ ∃ A, Sim env L T' A ∧ AReach env L A := by
    rintro T T' ⟨q, A, M, hA⟩ h
    exact ⟨q.trans (record_grow h), A, record_sim M h, hA⟩
  have fin : ∀ {T : Perc α}, Extended S T → Extended S { T with firstRun := false } := fun q => ⟨q.prob, q.ent, q.wrap, q.lrg, fun h => ⟨rfl, (q.done h).2⟩⟩
  have h0 : Extended S S ∧ ∃ A, Sim env L S A ∧ AReach env L A := ⟨Extended.refl S, hS⟩
  cases op with
  | place d =>
    simp only [SqPerc.step] at hs
    cases h1 : S.placeOneSite env v d with
    | error e => rw [h1] at hs; cases hs
    | ok r => rw [h1] at hs; rw [← Except.ok.inj hs]; exact (hp (b := r.2) h0 h1).1
  | detect =>
    simp only [SqPerc.step] at hs
    cases h1 : S.detectWrapping with
    | error e => rw [h1] at hs; cases hs
    | ok r => rw [h1] at hs; rw [← Except.ok.inj hs]; exact (hd (w := r.2) h0 h1).1
  | runOnce fuel ds =>
    simp only [SqPerc.step, Perc.runOnceV] at hs
    have gen : ∀ {S'}, S.runOnce env v fuel ds = .ok S' → Extended S S' := by
      intro S' h
      simp only [Perc.runOnce] at h
      cases h1 : Perc.runLoop env v fuel ds S with
      | error e => rw [h1] at h; cases h
      | ok S1 =>
        rw [h1] at h
        rw [← Except.ok.inj h]
        exact fin (runLoop_ind (fun T => Extended S T ∧ ∃ A, Sim env L T A ∧ AReach env L A) hp hd hr fuel h0 h1).1
    cases v with
    | sp =>
      simp only [Perc.spRunOnce] at hs
      cases h1 : Perc.spLoop env fuel S with
      | error e => rw [h1] at hs; cases hs
      | ok r =>
        rw [h1] at hs
        rw [← Except.ok.inj hs]
        have := spLoop_ind (fun T => Extended S T ∧ ∃ A, Sim env L T A ∧ AReach env L A) hp hd
          (fun q => ⟨⟨q.1.prob, q.1.ent, q.1.wrap, q.1.lrg, q.1.done⟩,
            by obtain ⟨_, A, M, hA⟩ := q; exact ⟨A, M.aux rfl rfl rfl rfl rfl rfl rfl rfl rfl rfl rfl rfl rfl rfl, hA⟩⟩)
          fuel h0 (S' := r.1) (b := r.2) h1
        exact fin this.1
    | l0 => exact gen hs
    | l1 => exact gen hs
    | l2 => exact gen hs
  | testRunOnce fuel ds =>
    simp only [SqPerc.step, Perc.testRunOnce] at hs
    cases h1 : Perc.testRunLoop env v fuel ds S with
    | error e => rw [h1] at hs; cases hs
    | ok S1 =>
      rw [h1] at hs
      rw [← Except.ok.inj hs]
      exact fin (testRunLoop_ind (fun T => Extended S T ∧ ∃ A, Sim env L T A ∧ AReach env L A) hp hd hr fuel h0 h1).1
  | reset _ => cases ho
  | shuffle draws =>
    obtain ⟨ids, rev, rfl, _⟩ := shuffle_perm (L := L) hs
    exact .of_eq rfl rfl rfl rfl id
  | setIds ids b draws =>
    simp only [SqPerc.step, Perc.setCustomIds] at hs
    split at hs
    · cases hs
    · split at hs
      · rw [← Except.ok.inj hs]; exact .refl S
      · obtain ⟨ids', rev', rfl, _⟩ := shuffle_perm (L := L) hs
        exact .of_eq rfl rfl rfl rfl id
  | setIndices ids b draws =>
    simp only [SqPerc.step, Perc.setCustomIndices] at hs
    split at hs
    · cases hs
    · split at hs
      · rw [← Except.ok.inj hs]; exact .refl S
      · obtain ⟨ids', rev', rfl, _⟩ := shuffle_perm (L := L) hs
        exact .of_eq rfl rfl rfl rfl id
  | swapIds i j =>
    obtain ⟨ids, rev, rfl, _⟩ := swapIds_kept (L := L) hs
    exact .of_eq rfl rfl rfl rfl id

/-- … or raises. -/
theorem stepRaised_grow {op : Op} {e : PyErr} (hS : ∃ A, Sim env L S A ∧ AReach env L A) (hs : SqPerc.step env v S op = .error e) :
    Extended S (stepRaised env v S op) := by
  have hp : ∀ {T T' : Perc α} {d : Draw} {b : Bool}, (Extended S T ∧ ∃ A, Sim env L T A ∧ AReach env L A) → T.placeOneSite env v d = .ok (T', b) →
      Extended S T' ∧ ∃ A, Sim env L T' A ∧ AReach env L A := by
    rintro T T' d b ⟨q, A, M, hA⟩ h
    obtain ⟨A', h1, h2⟩ := placeOneSite_steps M hA.inv h
    exact ⟨q.trans (place_grow M hA h), A', h2, hA.steps h1⟩
  have hd : ∀ {T T' : Perc α} {w : Bool}, (Extended S T ∧ ∃ A, Sim env L T A ∧ AReach env L A) → T.detectWrapping = .ok (T', w) →
      Extended S T' ∧ ∃ A, Sim env L T' A ∧ AReach env L A := by
    rintro T T' w ⟨q, A, M, hA⟩ h
    obtain ⟨_, _, _, A', h1, h2, _⟩ := detectWrapping_steps M hA.inv h
    exact ⟨q.trans (detect_grow M hA h), A', h2, hA.steps h1⟩
  have hr : ∀ {T T' : Perc α}, (Extended S T ∧ ∃ A, Sim env L T A ∧ AReach env L A) → T.record env = .ok T' → Extended S T' ∧ ∃ A, Sim env L T' A ∧ AReach env L A := by
    rintro T T' ⟨q, A, M, hA⟩ h
    exact ⟨q.trans (record_grow h), A, record_sim M h, hA⟩
  refine (stepRaised_ind (fun T => Extended S T ∧ ∃ A, Sim env L T A ∧ AReach env L A) hp ?_ hd hr ?_ ⟨Extended.refl S, hS⟩ hs).1
  · rintro T d e ⟨q, A, M, hA⟩ he
    obtain ⟨A', h1, h2⟩ := placeRaised_steps M hA.inv he
    refine ⟨?_, A', h2, hA.steps h1⟩
    rcases placeRaised_cases M hA.inv he with h | ⟨k, hv, _, hk, hkl, h0, h⟩
    · rw [h]; exact q
    · rw [h]; exact ⟨q.prob, q.ent, q.wrap, q.lrg, q.done⟩
  · rintro T i j e hop ⟨q, A, M, hA⟩ he
    obtain ⟨ids, hi, hk⟩ := swapRaised_kept (L := L) he
    rw [hi]
    exact ⟨⟨q.prob, q.ent, q.wrap, q.lrg, q.done⟩, A, M.aux rfl rfl rfl rfl rfl rfl rfl rfl rfl rfl rfl rfl rfl rfl, hA⟩

/-- `reset` empties the lists; the occupation probabilities are kept once there was a run. -/
theorem reset_lists {draws : Nat → Nat} (h : S.reset env v draws = .ok S') :
    S'.entropyList = [] ∧ S'.orderWrapList = [] ∧ S'.orderLargestList = [] ∧ S'.firstRun = S.firstRun ∧
    S'.occProbList = if S.firstRun then [] else S.occProbList := by
  simp only [Perc.reset] at h
  cases hB : S.resetBase draws with
  | error e => rw [hB] at h; cases h
  | ok B =>
    have hb : B.entropyList = [] ∧ B.orderWrapList = [] ∧ B.orderLargestList = [] ∧ B.firstRun = S.firstRun ∧
        B.occProbList = if S.firstRun then [] else S.occProbList := by
      simp only [Perc.resetBase] at hB
      cases hi : initClusters S.lat.reset with
      | error e => rw [hi] at hB; cases hB
      | ok pl =>
        rw [hi] at hB
        replace hB : (Perc.shuffle _ draws >>= _) = _ := hB
        cases hs : Perc.shuffle { S with lat := pl.2, pool := pl.1, pcBonds := none, pcSites := none } draws with
        | error e => rw [hs] at hB; cases hB
        | ok S2 =>
          rw [hs] at hB
          obtain ⟨ids, rev, rfl, _⟩ := shuffle_perm (L := 0) hs
          rw [← Except.ok.inj hB]
          exact ⟨rfl, rfl, rfl, rfl, rfl⟩
    rw [hB] at h
    cases v <;> (rw [← Except.ok.inj h]; exact hb)

/-- The simulation goes on, whether the call returns … -/
theorem simStep {op : Op} (hS : ∃ A, Sim env L S A ∧ AReach env L A) (hs : SqPerc.step env v S op = .ok S') :
    ∃ A, Sim env L S' A ∧ AReach env L A := by
  obtain ⟨A, M, hA⟩ := hS
  rcases step_steps M hA.inv hs with ⟨_, h⟩ | ⟨_, A', h1, h2⟩
  · exact ⟨_, h, .init hA.inv.selLt⟩
  · exact ⟨A', h2, hA.steps h1⟩

/-- … or raises. -/
theorem simRaised {op : Op} {e : PyErr} (hS : ∃ A, Sim env L S A ∧ AReach env L A) (hs : SqPerc.step env v S op = .error e) :
    ∃ A, Sim env L (stepRaised env v S op) A ∧ AReach env L A := by
  obtain ⟨A, M, hA⟩ := hS
  obtain ⟨A', h1, h2⟩ := stepRaised_steps M hA hs
  exact ⟨A', h2, hA.steps h1⟩

end SqPerc
