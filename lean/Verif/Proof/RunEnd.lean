import Verif.Proof.Default
import Verif.Proof.Observe
/-
Whole runs in the default mode.
-/
namespace SqPerc

variable {α : Type} {L : Nat} {env : Env α} {v : Variant} {S S1 S' : Perc α} {A : Abs α} {d : Draw} {b : Bool}

/-- What the data lists look like after `reset`. -/
structure ResetLists (S S' : Perc α) : Prop where
  firstRun : S'.firstRun = S.firstRun
  occProb : S'.occProbList = if S.firstRun then [] else S.occProbList
  entList : S'.entropyList = []
  owList : S'.orderWrapList = []
  olList : S'.orderLargestList = []
  flag : S'.selectionFlag = none
  selected : S'.selected = S.selected

/-- `reset` never raises in the default mode and restores the full budget. -/
theorem Live.reset (H : Live env v L S) (draws : Nat → Nat) : ∃ S', S.reset env v draws = .ok S' ∧ Live env v L S' ∧
    S'.budget L v = initBudget L v ∧ ResetLists S S' ∧ (∀ s, ¬ S'.Occ s) ∧ S'.occupiedCount = 0 ∧ S'.currentIdx = 0 ∧
    (v.plain = true → S'.siteIds = pyShuffle draws S.siteIds ∧ Inverse S'.siteIds S'.revIds) := by
  obtain ⟨A, M, hA⟩ := H.sim
  obtain ⟨rev, e, e1, e2⟩ := resetBase_default M.lat H.doSh (by intro k hk; rw [H.rev]; exact H.lt k hk) draws
  have hI : ∀ k, A.sel = some k → k < L * L := hA.inv.selLt
  have hp2 : (mkLat L LV.init).length ^ 2 = L * L := by rw [mkLat_length, Nat.pow_two]
  have hr : ∀ S', S.reset env v draws = .ok S' → (∀ s, ¬ S'.Occ s) ∧ S'.occupiedCount = 0 := by
    intro S' h
    have M' := reset_sim M h
    refine ⟨fun s => ?_, M'.count⟩
    rw [M'.occ_iff]
    rintro ⟨_, h⟩
    exact absurd h (show ¬ (0 : Int) ≤ -1 by decide)
  have hsel := H.sel
  cases v with
  | l0 =>
    have h := (show S.reset env .l0 draws = _ by simp only [Perc.reset]; rw [e])
    have hp := (pyShuffle_perm draws S.siteIds).trans (perm_range hsel.1 H.len H.lt)
    obtain ⟨l1, l2⟩ := live_init (v := .l0) (reset_sim M h) hI (by exact e1.trans H.rev) (by exact hp) (by exact H.maxIter)
      (by exact H.custom) (by exact H.doSh) rfl
    exact ⟨_, h, l1, l2, ⟨rfl, rfl, rfl, rfl, rfl, rfl, rfl⟩, (hr _ h).1, rfl, rfl, fun _ => ⟨rfl, e2 hsel.1⟩⟩
  | sp =>
    have h := (show S.reset env .sp draws = _ by simp only [Perc.reset]; rw [e])
    have hp := (pyShuffle_perm draws S.siteIds).trans (perm_range hsel.1 H.len H.lt)
    obtain ⟨l1, l2⟩ := live_init (v := .sp) (reset_sim M h) hI (by exact e1.trans H.rev) (by exact hp) (by exact H.maxIter)
      (by exact H.custom) (by exact H.doSh) rfl
    exact ⟨_, h, l1, l2, ⟨rfl, rfl, rfl, rfl, rfl, rfl, rfl⟩, (hr _ h).1, rfl, rfl, fun _ => ⟨rfl, e2 hsel.1⟩⟩
  | l1 =>
    have h := (show S.reset env .l1 draws = _ by simp only [Perc.reset]; rw [e])
    obtain ⟨l1, l2⟩ := live_init (v := .l1) (reset_sim M h) hI (by exact e1.trans H.rev) (by show List.Perm (List.range ((mkLat L LV.init).length ^ 2)) _; rw [hp2])
      (by exact H.maxIter) (by exact H.custom) (by exact H.doSh) rfl
    exact ⟨_, h, l1, l2, ⟨rfl, rfl, rfl, rfl, rfl, rfl, rfl⟩, (hr _ h).1, rfl, rfl, fun h => by cases h⟩
  | l2 =>
    have h := (show S.reset env .l2 draws = _ by simp only [Perc.reset]; rw [e])
    obtain ⟨l1, l2⟩ := live_init (v := .l2) (reset_sim M h) hI (by exact e1.trans H.rev) (by show List.Perm (List.range ((mkLat L LV.init).length ^ 2)) _; rw [hp2])
      (by exact H.maxIter) (by exact H.custom) (by exact H.doSh) rfl
    exact ⟨_, h, l1, l2, ⟨rfl, rfl, rfl, rfl, rfl, rfl, rfl⟩, (hr _ h).1, rfl, rfl, fun h => by cases h⟩

theorem Live.reset_ok {draws : Nat → Nat} (H : Live env v L S) (h : S.reset env v draws = .ok S') : Live env v L S' := by
  obtain ⟨S1, h1, h2, _⟩ := H.reset draws
  rw [h1] at h
  rw [← Except.ok.inj h]; exact h2

/-- Changes of the data lists. -/
theorem Live.data (H : Live env v L S) (fr : Bool) (l1 l2 l3 l4 : List α) (p : α) :
    Live env v L { S with firstRun := fr, occProbList := l1, entropyList := l2, orderWrapList := l3, orderLargestList := l4, shortestP := p } ∧
    Perc.budget L { S with firstRun := fr, occProbList := l1, entropyList := l2, orderWrapList := l3, orderLargestList := l4, shortestP := p } v =
      S.budget L v :=
  H.aux (fun _ M => M.aux rfl rfl rfl rfl rfl rfl rfl rfl rfl rfl rfl rfl rfl rfl) rfl rfl rfl rfl rfl rfl rfl rfl

/-- Every state of an object in the default mode is live. -/
theorem DefReach.live (h : DefReach env v L S) : Live env v L S := by
  induction h with
  | new h => exact (new_live h).1
  | @step S S' op hop _ h ih =>
    cases op with
    | place d =>
      simp only [SqPerc.step] at h
      cases hp : S.placeOneSite env v d with
      | error e => rw [hp] at h; cases h
      | ok r => rw [hp] at h; rw [← Except.ok.inj h]; exact ih.place_ok (b := r.2) hp
    | detect =>
      simp only [SqPerc.step] at h
      cases hp : S.detectWrapping with
      | error e => rw [hp] at h; cases h
      | ok r => rw [hp] at h; rw [← Except.ok.inj h]; exact (ih.detect (w := r.2) hp).1
    | reset draws => exact ih.reset_ok h
    | runOnce fuel ds =>
      simp only [SqPerc.step, Perc.runOnceV] at h
      have gen : ∀ {S'}, S.runOnce env v fuel ds = .ok S' → Live env v L S' := by
        intro S' h
        simp only [Perc.runOnce] at h
        cases hr : Perc.runLoop env v fuel ds S with
        | error e => rw [hr] at h; cases h
        | ok S1 =>
          rw [hr] at h
          rw [← Except.ok.inj h]
          exact ((runLoop_ind (Live env v L) (fun q h => q.place_ok h) (fun q h => (q.detect h).1) (fun q h => (q.record h).1) fuel ih hr).data
            false _ _ _ _ _).1
      cases v with
      | sp =>
        simp only [Perc.spRunOnce] at h
        cases hr : Perc.spLoop env fuel S with
        | error e => rw [hr] at h; cases h
        | ok r =>
          rw [hr] at h
          rw [← Except.ok.inj h]
          have := spLoop_ind (Live env .sp L) (fun q h => q.place_ok h) (fun q h => (q.detect h).1) (fun q => (q.data _ _ _ _ _ _).1) fuel ih
            (S' := r.1) (b := r.2) hr
          exact (this.data false _ _ _ _ _).1
      | l0 => exact gen h
      | l1 => exact gen h
      | l2 => exact gen h
    | testRunOnce fuel ds =>
      simp only [SqPerc.step, Perc.testRunOnce] at h
      cases hr : Perc.testRunLoop env v fuel ds S with
      | error e => rw [hr] at h; cases h
      | ok S1 =>
        rw [hr] at h
        rw [← Except.ok.inj h]
        exact ((testRunLoop_ind (Live env v L) (fun q h => q.place_ok h) (fun q h => (q.detect h).1) (fun q h => (q.record h).1) fuel ih hr).data
          false _ _ _ _ _).1
    | shuffle _ => cases hop
    | setIds _ _ _ => cases hop
    | setIndices _ _ _ => cases hop
    | swapIds _ _ => cases hop
  | @caught S e op hop _ h _ ih =>
    refine stepRaised_ind (Live env v L) (fun q h => q.place_ok h) ?_ (fun q h => (q.detect h).1) (fun q h => (q.record h).1) ?_ ih h
    · intro S d e q he
      obtain ⟨_, _, h1, _⟩ := q.place d
      rw [he] at h1; cases h1
    · rintro S i j e rfl
      cases hop

/-! ### Sequences of calls -/

/-- `n` calls of `place_one_site`; returns the object and the values returned. -/
def placeN (env : Env α) (v : Variant) : Nat → (Nat → Draw) → Perc α → Py (Perc α × List Bool)
  | 0, _, S => .ok (S, [])
  | n + 1, ds, S => do
    let (S, b) ← S.placeOneSite env v (ds 0)
    let (S, bs) ← placeN env v n (fun i => ds (i + 1)) S
    return (S, b :: bs)

theorem Live.placeN (n : Nat) : ∀ {S : Perc α} (ds : Nat → Draw), Live env v L S → ∃ S', SqPerc.placeN env v n ds S =
    .ok (S', (List.range n).map fun i : Nat => decide ((i : Int) < S.budget L v)) ∧ Live env v L S' ∧ S'.budget L v = max 0 (S.budget L v - n) ∧
    (S.budget L v < n → ∀ s < L * L, S'.Occ s) := by
  induction n with
  | zero =>
    intro S ds H
    refine ⟨S, rfl, H, ?_, ?_⟩
    · have := H.nonneg; simp; omega
    · intro h; have := H.nonneg; simp at h; omega
  | succ n ih =>
    intro S ds H
    obtain ⟨S1, b, p1, H1, ht, hf⟩ := H.place (ds 0)
    obtain ⟨S', q1, H', hb, hfull⟩ := ih (fun i => ds (i + 1)) H1
    have hnn := H1.nonneg
    refine ⟨S', ?_, H', ?_, ?_⟩
    · simp only [SqPerc.placeN]
      rw [p1]
      show (SqPerc.placeN env v n (fun i => ds (i + 1)) S1 >>= _) = _
      rw [q1]
      show Except.ok (S', b :: _) = _
      rw [List.range_succ_eq_map, List.map_cons, List.map_map]
      cases b with
      | true =>
        obtain ⟨c1, c2⟩ := ht rfl
        congr 3
        · simpa using c1
        · apply List.map_congr_left
          intro i _
          show decide ((i : Int) < S1.budget L v) = decide (((i + 1 : Nat) : Int) < S.budget L v)
          congr 1
          apply propext
          push_cast; omega
      | false =>
        obtain ⟨c1, c2, _⟩ := hf rfl
        congr 3
        · simpa using c1.le
        · apply List.map_congr_left
          intro i _
          show decide ((i : Int) < S1.budget L v) = decide (((i + 1 : Nat) : Int) < S.budget L v)
          congr 1
          apply propext
          push_cast; omega
    · rw [hb]
      cases b with
      | true => obtain ⟨c1, c2⟩ := ht rfl; push_cast; omega
      | false => obtain ⟨c1, c2, _⟩ := hf rfl; push_cast; omega
    · intro hlt
      cases b with
      | true => obtain ⟨c1, c2⟩ := ht rfl; exact hfull (by push_cast at hlt; omega)
      | false =>
        obtain ⟨c1, c2, c3⟩ := hf rfl
        cases n with
        | succ n => exact hfull (by push_cast; omega)
        | zero =>
          injection q1 with q1
          have : S1 = S' := (Prod.mk.inj q1).1
          subst this
          obtain ⟨A, M, hA⟩ := H.sim
          intro s hs
          rcases placeOneSite_occ M hA.inv p1 with h | h
          · exact absurd h.2.1 (by simp)
          · exact (h.2.1 s).2 (c3 s hs)

/-- `run_once` ends, without raising, with every site occupied. -/
theorem Live.runLoop (fuel : Nat) : ∀ {S : Perc α} (ds : Nat → Draw), Live env v L S → S.budget L v < fuel →
    ∃ S', Perc.runLoop env v fuel ds S = .ok S' ∧ Live env v L S' ∧ ∀ s < L * L, S'.Occ s := by
  induction fuel with
  | zero => intro S ds H h; have := H.nonneg; simp at h; omega
  | succ fuel ih =>
    intro S ds H h
    obtain ⟨S1, b, p1, H1, ht, hf⟩ := H.place (ds 0)
    simp only [Perc.runLoop]
    rw [p1]
    obtain ⟨A, M, hA⟩ := H.sim
    cases b with
    | false =>
      refine ⟨S1, rfl, H1, ?_⟩
      intro s hs
      rcases placeOneSite_occ M hA.inv p1 with h | h
      · exact absurd h.2.1 (by simp)
      · exact (h.2.1 s).2 ((hf rfl).2.2 s hs)
    | true =>
      obtain ⟨c1, c2⟩ := ht rfl
      have hlt : S1.budget L v < fuel := by push_cast at h; omega
      show ∃ S', (if S1.selectionFlag = some .success then _ else _) = _ ∧ _
      by_cases hs : S1.selectionFlag = some .success
      · rw [if_pos hs]
        obtain ⟨A1, M1, hA1⟩ := H1.sim
        have hsel : S1.selected ≠ none := by
          obtain ⟨_, _, k, hk, _⟩ := (placeOneSite_occ M hA.inv p1).resolve_right (fun h => h.1 hs)
          rw [hk]; simp
        obtain ⟨S2, w, hd⟩ := detectWrapping_ok M1 hA1.inv hsel
        obtain ⟨H2, hb2⟩ := H1.detect hd
        obtain ⟨A2, M2, hA2⟩ := H2.sim
        obtain ⟨S3, hr⟩ := record_progress M2 hA2
        obtain ⟨H3, hb3⟩ := H2.record hr
        rw [hd]
        show ∃ S', (S2.record env >>= _) = _ ∧ _
        rw [hr]
        exact ih _ H3 (by omega)
      · rw [if_neg hs]
        exact ih _ H1 hlt

theorem Live.runOnce {fuel : Nat} (ds : Nat → Draw) (H : Live env v L S) (h : S.budget L v < fuel) :
    ∃ S', S.runOnce env v fuel ds = .ok S' ∧ Live env v L S' ∧ ∀ s < L * L, S'.Occ s := by
  obtain ⟨S1, h1, h2, h3⟩ := H.runLoop fuel ds h
  simp only [Perc.runOnce]
  rw [h1]
  exact ⟨_, rfl, (h2.data false _ _ _ _ _).1, h3⟩

end SqPerc
