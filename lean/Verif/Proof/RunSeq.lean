import Verif.Proof.RunEnd
/-
Placement sequences of whole runs.
-/
namespace SqPerc

variable {α : Type} {L : Nat} {env : Env α} {v : Variant} {S S1 S' : Perc α} {A : Abs α} {d : Draw} {b : Bool}

theorem DefReach.reach (h : DefReach env v L S) : Reach env v L S := by
  induction h with
  | new h => exact .new h
  | step op _ _ h ih => exact .step op ih h
  | caught op _ _ h he ih => exact .caught op ih h he

theorem not_mem_take {ids : List Nat} {i k n : Nat} (hnd : (ids.take n).Nodup) (hi : i < n) (hk : ids[i]? = some k) : k ∉ ids.take i := by
  have h1 : (ids.take n)[i]? = some k := by rw [List.getElem?_take_of_lt hi]; exact hk
  obtain ⟨hl, he⟩ := List.getElem?_eq_some_iff.1 h1
  intro hm
  obtain ⟨j, hj, e⟩ := List.mem_take_iff_getElem.1 hm
  have hj' : j < (ids.take n).length := by rw [List.length_take]; omega
  have e2 : (ids.take n)[j] = (ids.take n)[i] := by rw [he, List.getElem_take]; exact e
  have := (List.Nodup.getElem_inj_iff hnd).1 e2
  omega

/-- Calls of `place_one_site` in the plain classes work through the list. -/
theorem L0Ready.placeN {ids : List Nat} (hv : v.plain = true) (n : Nat) : ∀ {S : Perc α} {i : Nat} (ds : Nat → Draw), L0Ready L S ids i →
    (∃ A, Sim env L S A ∧ AReach env L A) → (ids.take (i + n)).Nodup → ∃ S', SqPerc.placeN env v n ds S =
      .ok (S', (List.range n).map fun j : Nat => decide (i + j < ids.length)) ∧ L0Ready L S' ids (min (i + n) ids.length) ∧
      (∃ A, Sim env L S' A ∧ AReach env L A) ∧ S'.selected = if n = 0 ∨ ids.length ≤ i then S.selected else ids[min (i + n) ids.length - 1]? := by
  induction n with
  | zero =>
    intro S i ds H hS _
    refine ⟨S, rfl, ?_, hS, by simp⟩
    rw [Nat.add_zero, Nat.min_eq_left H.le]; exact H
  | succ n ih =>
    intro S i ds H hS hnd
    obtain ⟨A, M, hA⟩ := hS
    by_cases hi : i < ids.length
    · have hk := List.getElem?_eq_getElem hi
      obtain ⟨S1, p1, _, hsel1, R⟩ := H.place M hA.inv hv hk (not_mem_take hnd (by omega) hk) (ds 0)
      obtain ⟨A1, hst, M1⟩ := placeOneSite_steps M hA.inv p1
      obtain ⟨S', q1, R', hS', hsel⟩ := ih (fun j => ds (j + 1)) R ⟨A1, M1, hA.steps hst⟩ (by rw [show i + 1 + n = i + (n + 1) by omega]; exact hnd)
      refine ⟨S', ?_, by rw [show i + (n + 1) = i + 1 + n by omega]; exact R', hS', ?_⟩
      · simp only [SqPerc.placeN]
        rw [p1]
        show (SqPerc.placeN env v n (fun j => ds (j + 1)) S1 >>= _) = _
        rw [q1]
        show Except.ok (S', true :: _) = _
        rw [List.range_succ_eq_map, List.map_cons, List.map_map]
        congr 3
        · simpa using hi
        · apply List.map_congr_left
          intro j _
          show decide (i + 1 + j < ids.length) = decide (i + (j + 1) < ids.length)
          congr 2; omega
      · rw [hsel, if_neg (show ¬ (n + 1 = 0 ∨ ids.length ≤ i) by omega)]
        by_cases hc : n = 0 ∨ ids.length ≤ i + 1
        · rw [if_pos hc, hsel1, ← hk]
          congr 1; omega
        · rw [if_neg hc, show i + 1 + n = i + (n + 1) by omega]
    · have hie : i = ids.length := Nat.le_antisymm H.le (by omega)
      subst hie
      obtain ⟨S1, p1, e1, R⟩ := H.done (env := env) hv (ds 0)
      obtain ⟨A1, hst, M1⟩ := placeOneSite_steps M hA.inv p1
      obtain ⟨S', q1, R', hS', hsel⟩ := ih (fun j => ds (j + 1)) R ⟨A1, M1, hA.steps hst⟩
        (by rw [List.take_of_length_le (by omega)] at hnd ⊢; exact hnd)
      refine ⟨S', ?_, ?_, hS', ?_⟩
      · simp only [SqPerc.placeN]
        rw [p1]
        show (SqPerc.placeN env v n (fun j => ds (j + 1)) S1 >>= _) = _
        rw [q1]
        show Except.ok (S', false :: _) = _
        rw [List.range_succ_eq_map, List.map_cons, List.map_map]
        congr 3
        · simp
        · apply List.map_congr_left
          intro j _
          show decide (ids.length + j < ids.length) = decide (ids.length + (j + 1) < ids.length)
          congr 1; apply propext; omega
      · rw [Nat.min_eq_right (by omega)] at R' ⊢; exact R'
      · rw [hsel, if_pos (by omega), if_pos (by omega), e1]

/-- The loop of `run_once` works through the list: placement sequence and collected data. -/
theorem L0Ready.runLoop {ids : List Nat} (hv : v.plain = true) (hnd : ids.Nodup) (fuel : Nat) : ∀ {S : Perc α} {i : Nat} (ds : Nat → Draw),
    L0Ready L S ids i → Trace env v L S (ids.take i) → ids.length - i < fuel →
    ∃ S', Perc.runLoop env v fuel ds S = .ok S' ∧ Trace env v L S' ids ∧ L0Ready L S' ids ids.length ∧
      Collected env v L S S' (ids.take i) (ids.drop i) := by
  induction fuel with
  | zero => intro S i ds _ _ h; omega
  | succ fuel ih =>
    intro S i ds H T hf
    obtain ⟨_, A, M, hA, _⟩ := T.sim
    simp only [Perc.runLoop]
    by_cases hi : i < ids.length
    · have hk := List.getElem?_eq_getElem hi
      have hnot : ids[i] ∉ ids.take i := not_mem_take (n := ids.length) (by rw [List.take_length]; exact hnd) hi hk
      obtain ⟨S1, p1, hfl, hsel1, R⟩ := H.place M hA.inv hv hk hnot (ds 0)
      obtain ⟨A1, hst, M1⟩ := placeOneSite_steps M hA.inv p1
      have hA1 := hA.steps hst
      obtain ⟨S2, w, hd⟩ := detectWrapping_ok M1 hA1.inv (by rw [hsel1]; simp)
      obtain ⟨haux2, _, _, A2, hst2, M2, _⟩ := detectWrapping_steps M1 hA1.inv hd
      obtain ⟨K, hocc, _⟩ := detectWrapping_keep M1 hA1.inv hd
      have T2 := T.placed p1 hfl hsel1 hd
      obtain ⟨S3, hr⟩ := record_progress M2 (hA1.steps hst2)
      have R3 : L0Ready L S3 ids (i + 1) := by
        obtain ⟨p, _, rfl⟩ := record_ok hr
        exact R.congr K.siteIds haux2.maxIter K.currentIdx hocc
      have et : ids.take i ++ [ids[i]] = ids.take (i + 1) := by rw [List.take_add_one, hk]; rfl
      obtain ⟨S', q1, T', R', C'⟩ := ih (fun j => ds (j + 1)) R3 (et ▸ T2.record hr) (by omega)
      rw [p1]
      show ∃ S', (if S1.selectionFlag = some .success then _ else _) = _ ∧ _
      rw [if_pos hfl]
      rw [hd]
      show ∃ S', (S2.record env >>= _) = _ ∧ _
      rw [hr]
      refine ⟨S', q1, T', R', ?_⟩
      rw [List.drop_eq_getElem_cons hi]
      rw [← et] at C'
      exact C'.cons ((placeOneSite_sim M hA.inv p1).1.trans haux2) T2 hr
    · have hie : i = ids.length := Nat.le_antisymm H.le (by omega)
      subst hie
      obtain ⟨S1, p1, e1, R⟩ := H.done (env := env) hv (ds 0)
      rw [p1]
      refine ⟨S1, rfl, ?_, R, ?_⟩
      · rw [List.take_length] at T
        exact T.skipped p1 (by rw [e1]; simp)
      · rw [List.drop_length]
        exact (placeOneSite_sim M hA.inv p1).1.collected

/-- More fuel does not change a finished run. -/
theorem runLoop_fuel {m : Nat} (fuel : Nat) : ∀ {ds : Nat → Draw} {S S' : Perc α}, Perc.runLoop env v fuel ds S = .ok S' →
    Perc.runLoop env v (fuel + m) ds S = .ok S' := by
  induction fuel with
  | zero => intro ds S S' h; cases h
  | succ fuel ih =>
    intro ds S S' h
    rw [Nat.succ_add]
    simp only [Perc.runLoop] at h ⊢
    cases h1 : S.placeOneSite env v (ds 0) with
    | error e => rw [h1] at h; cases h
    | ok res =>
      obtain ⟨S1, more⟩ := res
      rw [h1] at h
      cases more with
      | false => exact h
      | true =>
        replace h : (if S1.selectionFlag = some .success then _ else _) = _ := h
        show (if S1.selectionFlag = some .success then _ else _) = _
        split at h
        · next hf =>
          rw [if_pos hf]
          cases h2 : S1.detectWrapping with
          | error e => rw [h2] at h; cases h
          | ok res =>
            obtain ⟨S2, w⟩ := res
            rw [h2] at h
            replace h : (S2.record env >>= _) = _ := h
            show (S2.record env >>= _) = _
            cases h3 : S2.record env with
            | error e => rw [h3] at h; cases h
            | ok S3 => rw [h3] at h; exact ih h
        · next hf => rw [if_neg hf]; exact ih h

/-- States in which a run may be started afresh: just constructed or just reset, in the default mode. -/
inductive Fresh (env : Env α) (v : Variant) (L : Nat) : Perc α → Prop
  | new {draws : Nat → Nat} {S : Perc α} : Perc.new env L draws = .ok S → Fresh env v L S
  | reset {draws : Nat → Nat} {S S' : Perc α} : DefReach env v L S → S.reset env v draws = .ok S' → Fresh env v L S'

theorem Fresh.defReach (h : Fresh env v L S) : DefReach env v L S := by
  cases h with
  | new h => exact .new h
  | reset h hr => exact .step (.reset _) rfl h hr

theorem Fresh.trace (h : Fresh env v L S) : Trace env v L S [] := by
  cases h with
  | new h => exact .new h
  | reset h hr => exact .start h.reach hr

theorem Fresh.live (h : Fresh env v L S) : Live env v L S ∧ S.budget L v = initBudget L v ∧ S.currentIdx = 0 ∧ (∀ s, ¬ S.Occ s) := by
  refine ⟨h.defReach.live, ?_⟩
  have hocc : ∀ s, ¬ S.Occ s := fun s hs => by have := (h.trace.reports.occ s).1 hs; simp at this
  cases h with
  | new h =>
    refine ⟨(new_live h).2, ?_, hocc⟩
    obtain ⟨_, rev, rfl, _⟩ := new_inv h
    rfl
  | reset h hr =>
    obtain ⟨S2, h1, _, h2, _, _, _, h3, _⟩ := h.live.reset _
    rw [h1] at hr
    rw [← Except.ok.inj hr] at hocc ⊢
    exact ⟨h2, h3, hocc⟩

theorem Fresh.perm (h : Fresh env v L S) (hv : v.plain = true) : S.siteIds.Perm (List.range (L * L)) ∧ L0Ready L S S.siteIds 0 := by
  obtain ⟨H, _, h0, _⟩ := h.live
  have hsel : S.siteIds.Nodup ∧ L0Ready L S S.siteIds S.currentIdx := by
    have := H.sel
    cases v <;> first | exact this | cases hv
  rw [h0] at hsel
  exact ⟨perm_range hsel.1 H.len H.lt, hsel.2⟩

/-- A trace that fills the lattice has `L²` placements. -/
theorem Trace.full_length {seq : List Nat} (T : Trace env v L S seq) (h : ∀ s < L * L, S.Occ s) : seq.length = L * L ∧ seq.Perm (List.range (L * L)) := by
  obtain ⟨_, A, M, hA, I⟩ := T.sim
  have hc : A.count = L * L := by
    rw [hA.count, occCount_full]
    intro s hs; exact (M.occ_iff s).1 (h s hs)
  have hl : seq.length = L * L := by rw [← I.count]; exact hc
  refine ⟨hl, perm_range I.nd hl ?_⟩
  intro x hx
  exact ((I.occ x).2 hx).1

/-! ### Lengths of the collected data -/

/-- A candidate is rejected only if it is occupied. -/
theorem rejected_occ (M : Sim env L S A) (h : S.selectSite v d = .ok (S1, .currentSiteNotEmpty)) : ∃ x, S.Occ x := by
  have plain : S.selectL0 ≠ .ok (S1, .currentSiteNotEmpty) := by
    intro h
    simp only [Perc.selectL0] at h
    split at h
    · injection h with h; injection h with _ h; cases h
    · cases h1 : pyGet S.siteIds S.currentIdx with
      | error e => rw [h1] at h; cases h
      | ok k =>
        rw [h1] at h
        replace h : (S.lat.getSite k >>= _) = _ := h
        cases h2 : S.lat.getSite k with
        | error e => rw [h2] at h; cases h
        | ok st =>
          rw [h2] at h
          replace h : (pyAssert _ >>= _) = _ := h
          cases h3 : pyAssert (decide (st.gid = -1)) with
          | error e => rw [h3] at h; cases h
          | ok u => rw [h3] at h; injection h with h; injection h with _ h; cases h
  have fin : ∀ {T T' : Perc α} {k : Nat}, T.finishSelect k ≠ .ok (T', .currentSiteNotEmpty) := by
    intro T T' k h
    simp only [Perc.finishSelect] at h
    cases h2 : T.lat.getSite k with
    | error e => rw [h2] at h; cases h
    | ok st =>
      rw [h2] at h
      replace h : (pyAssert _ >>= _) = _ := h
      cases h3 : pyAssert (decide (st.gid = -1)) with
      | error e => rw [h3] at h; cases h
      | ok u => rw [h3] at h; injection h with h; injection h with _ h; cases h
  cases v with
  | l0 => exact absurd h plain
  | sp => exact absurd h plain
  | l1 =>
    simp only [Perc.selectSite] at h
    rcases selectL1_inv M.lat h with ⟨_, h1⟩ | ⟨h1, h2, x, hx, hxl⟩
    · injection h1 with _ h1; cases h1
    · rw [selectL1_eq M.lat d h1 h2 rfl hx hxl] at h
      split at h
      · next h0 => exact ⟨x, (M.occ_iff x).2 ⟨hxl, h0⟩⟩
      · exact absurd h fin
  | l2 =>
    simp only [Perc.selectSite] at h
    rcases selectL2_inv M.lat h with ⟨_, h1⟩ | ⟨h1, h2, x, hx, hxl⟩
    · injection h1 with _ h1; cases h1
    · rw [selectL2_eq M.lat d h1 h2 rfl hx hxl] at h
      split at h
      · next h0 => exact ⟨x, (M.occ_iff x).2 ⟨hxl, h0⟩⟩
      · exact absurd h fin

/-- On an empty lattice a call of `place_one_site` that returns True places a site. -/
theorem place_on_empty (M : Sim env L S A) (I : AInv L A) (h0 : ∀ s, ¬ S.Occ s) (h : S.placeOneSite env v d = .ok (S', true)) :
    S'.selectionFlag = some .success := by
  obtain ⟨S1, flag, h1, h2, h3, _⟩ := placeOneSite_select M I h
  rw [h3]
  cases flag with
  | success => rfl
  | currentSiteNotEmpty => obtain ⟨x, hx⟩ := rejected_occ M h1; exact absurd hx (h0 x)
  | emptySiteList => simp at h2

/-- Calls of `place_one_site` leave the collected data alone and never free a site. -/
theorem placeN_aux (n : Nat) : ∀ {S S' : Perc α} {A : Abs α} {ds : Nat → Draw} {bs : List Bool}, Sim env L S A → AReach env L A →
    placeN env v n ds S = .ok (S', bs) → SameAux S S' ∧ S.occupiedCount ≤ S'.occupiedCount ∧ ∃ A', Sim env L S' A' ∧ AReach env L A' := by
  induction n with
  | zero =>
    intro S S' A ds bs M hA h
    obtain ⟨rfl, _⟩ := Prod.mk.inj (Except.ok.inj h)
    exact ⟨⟨rfl, rfl, rfl, rfl, rfl, rfl, rfl, rfl, rfl⟩, Nat.le_refl _, A, M, hA⟩
  | succ n ih =>
    intro S S' A ds bs M hA h
    simp only [placeN] at h
    cases h1 : S.placeOneSite env v (ds 0) with
    | error e => rw [h1] at h; cases h
    | ok r =>
      obtain ⟨S1, b⟩ := r
      rw [h1] at h
      replace h : (placeN env v n (fun i => ds (i + 1)) S1 >>= _) = _ := h
      cases h2 : placeN env v n (fun i => ds (i + 1)) S1 with
      | error e => rw [h2] at h; cases h
      | ok r2 =>
        rw [h2] at h
        obtain ⟨h3, _⟩ := Prod.mk.inj (Except.ok.inj h)
        obtain ⟨A1, hst, M1⟩ := placeOneSite_steps M hA.inv h1
        obtain ⟨i1, i2, i3⟩ := ih (bs := r2.2) M1 (hA.steps hst) h2
        rw [h3] at i1 i2 i3
        have ho : S.occupiedCount ≤ S1.occupiedCount := by
          rcases placeOneSite_occ M hA.inv h1 with ⟨_, _, _, _, _, _, _, h⟩ | ⟨_, _, h, _⟩ <;> omega
        exact ⟨(placeOneSite_sim M hA.inv h1).1.trans i1, by omega, i3⟩

/-- The loop of `run_once` records one entry per placed site. -/
theorem runLoop_len (fuel : Nat) : ∀ {S S' : Perc α} {A : Abs α} {ds : Nat → Draw}, Sim env L S A → AReach env L A →
    Perc.runLoop env v fuel ds S = .ok S' → S'.firstRun = S.firstRun ∧
      S'.entropyList.length + S.occupiedCount = S.entropyList.length + S'.occupiedCount ∧
      (S.firstRun = true → S'.occProbList.length + S.occupiedCount = S.occProbList.length + S'.occupiedCount) ∧
      (S.firstRun = false → S'.occProbList = S.occProbList) := by
  induction fuel with
  | zero => intro S S' A ds _ _ h; cases h
  | succ fuel ih =>
    intro S S' A ds M hA h
    simp only [Perc.runLoop] at h
    cases h1 : S.placeOneSite env v (ds 0) with
    | error e => rw [h1] at h; cases h
    | ok res =>
      obtain ⟨S1, more⟩ := res
      rw [h1] at h
      have a := (placeOneSite_sim M hA.inv h1).1
      obtain ⟨A1, hst, M1⟩ := placeOneSite_steps M hA.inv h1
      have hA1 := hA.steps hst
      have hp := placeOneSite_occ M hA.inv h1
      cases more with
      | false =>
        replace h : (Except.ok S1 : Py (Perc α)) = _ := h
        rw [← Except.ok.inj h]
        have hc : S1.occupiedCount = S.occupiedCount := by
          rcases hp with h | h
          · exact absurd h.2.1 (by simp)
          · exact h.2.2.1
        rw [a.firstRun, a.entList, a.occProb, hc]
        exact ⟨rfl, rfl, fun _ => rfl, fun _ => rfl⟩
      | true =>
        replace h : (if S1.selectionFlag = some .success then _ else _) = _ := h
        split at h
        · next hf =>
          have hc : S1.occupiedCount = S.occupiedCount + 1 := by
            obtain ⟨_, _, _, _, _, _, _, h⟩ := hp.resolve_right (fun h => h.1 hf)
            exact h
          cases h2 : S1.detectWrapping with
          | error e => rw [h2] at h; cases h
          | ok res =>
            obtain ⟨S2, w⟩ := res
            rw [h2] at h
            obtain ⟨a2, _, _, A2, hst2, M2, _⟩ := detectWrapping_steps M1 hA1.inv h2
            obtain ⟨_, _, hc2⟩ := detectWrapping_keep M1 hA1.inv h2
            replace h : (S2.record env >>= _) = _ := h
            cases h3 : S2.record env with
            | error e => rw [h3] at h; cases h
            | ok S3 =>
              rw [h3] at h
              obtain ⟨i1, i2, i3, i4⟩ := ih (record_sim M2 h3) (hA1.steps hst2) h
              obtain ⟨p, _, rfl⟩ := record_ok h3
              have a3 := a.trans a2
              simp only [a3.firstRun, a3.entList, a3.occProb, hc2, hc, List.length_append, List.length_singleton] at i1 i2 i3 i4
              refine ⟨i1, by omega, fun hfr => ?_, fun hfr => ?_⟩
              · have := i3 hfr
                rw [if_pos hfr] at this
                simp only [List.length_append, List.length_singleton] at this
                omega
              · rw [i4 hfr, if_neg (by rw [hfr]; simp)]
        · next hf =>
          have hc : S1.occupiedCount = S.occupiedCount := by
            rcases hp with h | h
            · exact absurd h.1 hf
            · exact h.2.2.1
          obtain ⟨i1, i2, i3, i4⟩ := ih M1 hA1 h
          rw [a.firstRun] at i1 i3 i4
          rw [a.entList, hc] at i2
          rw [a.occProb] at i3 i4
          rw [hc] at i3
          exact ⟨i1, i2, i3, i4⟩

end SqPerc
