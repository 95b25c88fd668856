import Verif.Props.Raised
import Verif.Proof.Shortest
/-
C71, continued: what `run_once` of the other classes, `test_run_once` and `swap_ids` leave behind when they raise.
-/
namespace SqPerc

variable {α : Type} {L : Nat} {env : Env α} {v : Variant} {S S' : Perc α} {e : PyErr}

/-! ### Proofs -/

theorem drop_cons {l : List Nat} {i k : Nat} (hk : l[i]? = some k) : l.drop i = k :: l.drop (i + 1) := by
  have hl : i < l.length := (List.getElem?_eq_some_iff.1 hk).1
  rw [List.drop_eq_getElem_cons hl, (List.getElem?_eq_some_iff.1 hk).2]

/-- A run that raises, in any class: a placement raised, and what was placed before is recorded. -/
theorem Trace.run_raised_at (fuel : Nat) : ∀ {ds : Nat → Draw} {S : Perc α} {seq : List Nat} {e : PyErr}, Trace env v L S seq →
    Perc.runLoop env v fuel ds S = .error e → e ≠ .outOfFuel →
    ∃ (T : Perc α) (d : Draw) (more : List Nat), T.placeOneSite env v d = .error e ∧ S.runRaised env v fuel ds = T.placeRaised v ∧
      Trace env v L T (seq ++ more) ∧ Collected env v L S T seq more := by
  induction fuel with
  | zero => intro ds S seq e _ h he; exact absurd (Except.error.inj h).symm he
  | succ fuel ih =>
    intro ds S seq e T h he
    simp only [Perc.runLoop] at h
    obtain ⟨_, A, M, hA, _⟩ := T.sim
    cases hp : S.placeOneSite env v (ds 0) with
    | error x =>
      rw [hp] at h
      obtain rfl : x = e := Except.error.inj h
      exact ⟨S, ds 0, [], hp, by rw [Perc.runRaised, hp], by rw [List.append_nil]; exact T, .nil rfl rfl rfl rfl rfl⟩
    | ok r =>
      obtain ⟨S1, b⟩ := r
      rw [hp] at h
      have haux := (placeOneSite_sim M hA.inv hp).1
      cases b with
      | false => cases h
      | true =>
        replace h : (if S1.selectionFlag = some .success then _ else _) = _ := h
        obtain ⟨A1, hst, M1⟩ := placeOneSite_steps M hA.inv hp
        by_cases hf : S1.selectionFlag = some .success
        · rw [if_pos hf] at h
          have hsel : S1.selected ≠ none := by
            rcases placeOneSite_occ M hA.inv hp with ⟨_, _, k, h2, _⟩ | h'
            · rw [h2]; simp
            · exact absurd hf h'.1
          obtain ⟨S2, w, hd⟩ := detectWrapping_ok M1 (hA.inv.steps hst) hsel
          obtain ⟨k, _, _, T2⟩ := T.place hp hf hd
          obtain ⟨haux2, _⟩ := detectWrapping_steps M1 (hA.inv.steps hst) hd
          obtain ⟨_, A2, M2, hA2, _⟩ := T2.sim
          obtain ⟨S3, hr3⟩ := record_progress M2 hA2
          rw [hd] at h
          replace h : (S2.record env >>= _) = _ := h
          rw [hr3] at h
          obtain ⟨U, d, more, g1, g2, g3, g4⟩ := ih (T2.record hr3) h he
          refine ⟨U, d, k :: more, g1, ?_, by simpa using g3, g4.cons (haux.trans haux2) T2 hr3⟩
          rw [← g2, Perc.runRaised, hp]
          show (if S1.selectionFlag = some .success then _ else _) = _
          rw [if_pos hf, hd]
          show (match S2.record env with
            | .error _ => S2
            | .ok S => Perc.runRaised env v fuel (fun i => ds (i + 1)) S) = _
          rw [hr3]
        · rw [if_neg hf] at h
          obtain ⟨U, d, more, g1, g2, g3, g4⟩ := ih (T.skipped hp hf) h he
          refine ⟨U, d, more, g1, ?_, g3, g4.skip haux⟩
          rw [← g2, Perc.runRaised, hp]
          show (if S1.selectionFlag = some .success then _ else _) = _
          rw [if_neg hf]

/-- `test_run_once` of a plain class raises: at an occupied site, or at the assertion after a detected wrapping. -/
theorem Trace.test_raised (hv : v.plain = true) (fuel : Nat) : ∀ {ds : Nat → Draw} {S : Perc α} {seq : List Nat} {e : PyErr}, Trace env v L S seq →
    S.siteIds.length = S.maxIter → (∀ k ∈ S.siteIds, k < L * L) → Perc.testRunLoop env v fuel ds S = .error e → e ≠ .outOfFuel →
    e = .assertionError ∧ ∃ n k, S.siteIds[S.currentIdx + n]? = some k ∧
      Collected env v L S (S.testRunRaised env v fuel ds) seq ((S.siteIds.drop S.currentIdx).take n) ∧
      (S.testRunRaised env v fuel ds).siteIds = S.siteIds ∧ (S.testRunRaised env v fuel ds).selected = some k ∧
      ((k ∈ seq ++ (S.siteIds.drop S.currentIdx).take n ∧
          Trace env v L (S.testRunRaised env v fuel ds) (seq ++ (S.siteIds.drop S.currentIdx).take n) ∧
          (S.testRunRaised env v fuel ds).currentIdx = S.currentIdx + n) ∨
       (k ∉ seq ++ (S.siteIds.drop S.currentIdx).take n ∧
          Trace env v L (S.testRunRaised env v fuel ds) (seq ++ (S.siteIds.drop S.currentIdx).take (n + 1)) ∧
          (S.testRunRaised env v fuel ds).currentIdx = S.currentIdx + (n + 1) ∧ (S.testRunRaised env v fuel ds).afterWrapping = true ∧
          (S.testRunRaised env v fuel ds).pcOccupied ≤ (S.testRunRaised env v fuel ds).getSiteCountPc)) := by
  induction fuel with
  | zero => intro ds S seq e _ _ _ h he; exact absurd (Except.error.inj h).symm he
  | succ fuel ih =>
    intro ds S seq e T hz hlt h he
    simp only [Perc.testRunLoop] at h
    obtain ⟨_, A, M, hA, _⟩ := T.sim
    rcases place_plain M hA.inv hv hz hlt (ds 0) with ⟨_, hp⟩ | ⟨hi, k, hk, ho, S1, hp, hf, hsel, hids, hidx⟩ | ⟨hi, k, hk, ho, hp, hr⟩
    · rw [hp] at h; cases h
    · rw [hp] at h
      have haux := (placeOneSite_sim M hA.inv hp).1
      obtain ⟨A1, hst, M1⟩ := placeOneSite_steps M hA.inv hp
      obtain ⟨S2, w, hd⟩ := detectWrapping_ok M1 (hA.inv.steps hst) (by rw [hsel]; simp)
      obtain ⟨k', hk1, hk2, T2⟩ := T.place hp hf hd
      obtain rfl : k' = k := Option.some.inj (hk1.symm.trans hsel)
      obtain ⟨haux2, _, _, A2', _, M2', haw, _⟩ := detectWrapping_steps M1 (hA.inv.steps hst) hd
      have K2 := (detectWrapping_keep M1 (hA.inv.steps hst) hd).1
      obtain ⟨_, A2, M2, hA2, _⟩ := T2.sim
      replace h : (if S1.selectionFlag = some .success then _ else _) = _ := h
      rw [if_pos hf, hd] at h
      have ed := drop_cons hk
      cases w with
      | true =>
        replace h : (pyAssert (decide (S2.pcOccupied > S2.getSiteCountPc)) >>= _) = _ := h
        have er : S.testRunRaised env v (fuel + 1) ds = S2 := by
          rw [Perc.testRunRaised, hp]
          show (if S1.selectionFlag = some .success then _ else _) = _
          rw [if_pos hf, hd]
        rw [er]
        by_cases hc : S2.pcOccupied > S2.getSiteCountPc
        · rw [decide_eq_true hc] at h; cases h
        · rw [decide_eq_false hc] at h
          refine ⟨(Except.error.inj h).symm, 0, k', hk, ?_, K2.siteIds.trans hids, hk2, Or.inr ⟨?_, ?_, ?_, ?_, ?_⟩⟩
          · rw [List.take_zero]
            have X := haux.trans haux2
            exact .nil X.firstRun X.occProb X.entList X.owList X.olList
          · rw [List.take_zero, List.append_nil]
            exact fun hm => ho ((T.reports.occ k').2 hm)
          · rw [ed]; simpa using T2
          · exact K2.currentIdx.trans hidx
          · rw [M2'.aw, haw]
          · omega
      | false =>
        obtain ⟨S3, hr3⟩ := record_progress M2 hA2
        replace h : (S2.record env >>= _) = _ := h
        rw [hr3] at h
        have f3 : S3.siteIds = S2.siteIds ∧ S3.currentIdx = S2.currentIdx ∧ S3.maxIter = S2.maxIter := by
          obtain ⟨p, _, rfl⟩ := record_ok hr3; exact ⟨rfl, rfl, rfl⟩
        have e1 : S3.siteIds = S.siteIds := f3.1.trans (K2.siteIds.trans hids)
        have e2 : S3.currentIdx = S.currentIdx + 1 := f3.2.1.trans (K2.currentIdx.trans hidx)
        have e3 : S3.maxIter = S.maxIter := f3.2.2.trans (haux2.maxIter.trans haux.maxIter)
        have er : S.testRunRaised env v (fuel + 1) ds = S3.testRunRaised env v fuel (fun i => ds (i + 1)) := by
          rw [Perc.testRunRaised, hp]
          show (if S1.selectionFlag = some .success then _ else _) = _
          rw [if_pos hf, hd]
          show (match S2.record env with
            | .error _ => S2
            | .ok S => Perc.testRunRaised env v fuel (fun i => ds (i + 1)) S) = _
          rw [hr3]
        obtain ⟨g1, n, j, g2, g3, g4, g5, g6⟩ := ih (T2.record hr3) (by rw [e1, e3]; exact hz) (by rw [e1]; exact hlt) h he
        rw [e1, e2] at g2 g3 g6
        rw [e1] at g4
        rw [er]
        refine ⟨g1, n + 1, j, ?_, ?_, g4, g5, ?_⟩
        · rw [← g2]; congr 1; omega
        · rw [ed, List.take_succ_cons]
          exact g3.cons (haux.trans haux2) T2 hr3
        · rw [ed, List.take_succ_cons, List.take_succ_cons]
          have hm : ∀ x, x ∈ seq ++ k' :: (S.siteIds.drop (S.currentIdx + 1)).take n ↔ x ∈ seq ++ [k'] ++ (S.siteIds.drop (S.currentIdx + 1)).take n :=
            fun x => by simp
          rcases g6 with ⟨a1, a2, a3⟩ | ⟨a1, a2, a3, a4, a5⟩
          · exact Or.inl ⟨(hm j).2 a1, by simpa using a2, by rw [a3]; omega⟩
          · exact Or.inr ⟨fun h => a1 ((hm j).1 h), by simpa using a2, by rw [a3]; omega, a4, a5⟩
    · rw [hp] at h
      have er : S.testRunRaised env v (fuel + 1) ds = { S with selected := some k } := by
        rw [Perc.testRunRaised, hp]; exact hr
      have Tr := T.raised hp
      rw [hr] at Tr
      rw [er]
      refine ⟨(Except.error.inj h).symm, 0, k, hk, ?_, rfl, rfl, Or.inl ⟨?_, by simpa using Tr, rfl⟩⟩
      · simp only [List.take_zero]
        exact .nil rfl rfl rfl rfl rfl
      · simp only [List.take_zero, List.append_nil]
        exact (T.reports.occ k).1 ho

/-- `run_once` of the shortest path class raises at an occupied site. -/
theorem Trace.sp_raised (fuel : Nat) : ∀ {S : Perc α} {seq : List Nat} {e : PyErr}, Trace env .sp L S seq →
    S.siteIds.length = S.maxIter → (∀ k ∈ S.siteIds, k < L * L) → Perc.spLoop env fuel S = .error e → e ≠ .outOfFuel →
    e = .assertionError ∧ ∃ n k, S.siteIds[S.currentIdx + n]? = some k ∧ k ∈ seq ++ (S.siteIds.drop S.currentIdx).take n ∧
      Trace env .sp L (S.spRaised env fuel) (seq ++ (S.siteIds.drop S.currentIdx).take n) ∧
      (∀ i j, ((S.siteIds.drop S.currentIdx).take n)[i]? = some j → ¬ Straight L (seq ++ (S.siteIds.drop S.currentIdx).take (i + 1)) j) ∧
      SameAux S (S.spRaised env fuel) ∧ (S.spRaised env fuel).shortestP = S.shortestP ∧
      (S.spRaised env fuel).siteIds = S.siteIds ∧ (S.spRaised env fuel).currentIdx = S.currentIdx + n ∧
      (S.spRaised env fuel).selected = some k := by
  induction fuel with
  | zero => intro S seq e _ _ _ h he; exact absurd (Except.error.inj h).symm he
  | succ fuel ih =>
    intro S seq e T hz hlt h he
    obtain ⟨_, A, M, hA, _⟩ := T.sim
    rcases place_plain M hA.inv (v := .sp) rfl hz hlt ⟨0, 0⟩ with ⟨_, hp⟩ | ⟨hi, k, hk, ho, S1, hp, hf, hsel, hids, hidx⟩ | ⟨hi, k, hk, ho, hp, hr⟩
    · rw [Perc.spLoop, hp] at h; cases h
    · have haux := (placeOneSite_sim M hA.inv hp).1
      rcases spLoop_round T hp fuel with ⟨hb, _⟩ | ⟨_, S2, k', _, hk1, T2, _, ⟨w, hd⟩, hsp, hcase⟩
      · cases hb
      obtain rfl : k' = k := Option.some.inj (hk1.symm.trans hsel)
      rcases hcase with ⟨_, hl, _⟩ | ⟨hns, hl⟩
      · rw [hl] at h; cases h
      rw [hl] at h
      obtain ⟨A1, hst, M1⟩ := placeOneSite_steps M hA.inv hp
      obtain ⟨haux2, _⟩ := detectWrapping_steps M1 (hA.inv.steps hst) hd
      have K2 := (detectWrapping_keep M1 (hA.inv.steps hst) hd).1
      have e1 : S2.siteIds = S.siteIds := K2.siteIds.trans hids
      have e2 : S2.currentIdx = S.currentIdx + 1 := K2.currentIdx.trans hidx
      have e3 : S2.maxIter = S.maxIter := haux2.maxIter.trans haux.maxIter
      have er : S.spRaised env (fuel + 1) = S2.spRaised env fuel := by
        rw [Perc.spRaised, hp]
        show (if S1.selectionFlag = some .success then _ else _) = _
        rw [if_pos hf, hd]
      obtain ⟨g1, n, j, g2, g3, g4, g5, g6, g7, g8, g9, g10⟩ := ih T2 (by rw [e1, e3]; exact hz) (by rw [e1]; exact hlt) h he
      rw [e1, e2] at g2 g3 g4 g5
      rw [e1] at g8
      rw [e2] at g9
      have ed := drop_cons hk
      rw [er]
      refine ⟨g1, n + 1, j, ?_, ?_, ?_, ?_, (haux.trans haux2).trans g6, g7.trans hsp, g8, by rw [g9]; omega, g10⟩
      · rw [← g2]; congr 1; omega
      · rw [ed]; simpa using g3
      · rw [ed]; simpa using g4
      · intro i x hx
        rw [ed, List.take_succ_cons] at hx
        rw [ed, List.take_succ_cons]
        cases i with
        | zero =>
          obtain rfl : k' = x := Option.some.inj hx
          simpa using hns
        | succ i =>
          have := g5 i x (by simpa using hx)
          simpa using this
    · have er : S.spRaised env (fuel + 1) = { S with selected := some k } := by
        rw [Perc.spRaised, hp]; exact hr
      have he' : e = .assertionError := by
        rw [Perc.spLoop, hp] at h; exact (Except.error.inj h).symm
      have Tr := T.raised hp
      rw [hr] at Tr
      rw [er]
      refine ⟨he', 0, k, hk, ?_, by simpa using Tr, fun i j hij => (by simp at hij), ⟨rfl, rfl, rfl, rfl, rfl, rfl, rfl, rfl, rfl⟩, rfl, rfl, rfl, rfl⟩
      simp only [List.take_zero, List.append_nil]
      exact (T.reports.occ k).1 ho

theorem swap_none {i j : Nat} (hij : i ≠ j) (h : S.revIds[i]? = none ∨ S.revIds[j]? = none) : S.swapIds i j = .error .indexError := by
  simp only [Perc.swapIds, if_neg hij, pyGet]
  cases hi : S.revIds[i]? with
  | none => rfl
  | some p =>
    rcases h with h | h
    · rw [hi] at h; cases h
    · rw [h]; rfl

theorem swap_bad {i j p q : Nat} (hij : i ≠ j) (hi : S.revIds[i]? = some p) (hj : S.revIds[j]? = some q)
    (h : S.siteIds.length ≤ p ∨ S.siteIds.length ≤ q) : S.swapIds i j = .error .indexError := by
  simp only [Perc.swapIds, if_neg hij, pyGet, hi, hj, pyModify, bind, Except.bind]
  by_cases hp : S.siteIds.length ≤ p
  · rw [List.getElem?_eq_none hp]
  · rw [List.getElem?_eq_getElem (by omega : p < S.siteIds.length)]
    simp only
    rw [List.getElem?_eq_none (by rw [List.length_set]; omega)]

theorem swap_good {i j p q : Nat} (hij : i ≠ j) (hi : S.revIds[i]? = some p) (hj : S.revIds[j]? = some q)
    (hp : p < S.siteIds.length) (hq : q < S.siteIds.length) : ∃ S1, S.swapIds i j = .ok S1 := by
  have hi' := (List.getElem?_eq_some_iff.1 hi).1
  have hj' := (List.getElem?_eq_some_iff.1 hj).1
  simp only [Perc.swapIds, if_neg hij, pyGet, hi, hj, pyModify, bind, Except.bind]
  rw [List.getElem?_eq_getElem hp]
  simp only
  rw [List.getElem?_eq_getElem (by rw [List.length_set]; exact hq)]
  simp only
  rw [List.getElem?_eq_getElem (by rw [List.length_set]; exact hi')]
  exact ⟨_, rfl⟩

/-! ### The claims -/

/-- C71: a `run_once` of L1 or L2 that raises (ValueError) has recorded exactly the rows of what it placed; the list is exhausted although
less than `L²` entries have been used, so every further placement raises too. -/
theorem C71_run_raised_l1l2 (h : Reach env v L S) (hv : v.plain = false) {seq : List Nat} (T : Trace env v L S seq) {fuel : Nat} {ds : Nat → Draw}
    (he : step env v S (.runOnce fuel ds) = .error e) (hf : e ≠ .outOfFuel) :
    e = .valueError ∧ ∃ S' more, stepRaised env v S (.runOnce fuel ds) = S' ∧ Trace env v L S' (seq ++ more) ∧ Collected env v L S S' seq more ∧
      S'.siteIds.length ≤ S'.currentIdx ∧ S'.currentIdx < L * L ∧ ∀ d, S'.placeOneSite env v d = .error .valueError := by
  have hR := h.caught (.runOnce fuel ds) he hf
  have he' : Perc.runLoop env v fuel ds S = .error e := by
    have : S.runOnce env v fuel ds = .error e := by
      cases v with
      | l0 => cases hv
      | sp => cases hv
      | l1 => exact he
      | l2 => exact he
    simp only [Perc.runOnce] at this
    cases hr : Perc.runLoop env v fuel ds S with
    | error x => rw [hr] at this; exact congrArg Except.error (Except.error.inj this)
    | ok S1 => rw [hr] at this; cases this
  have es : stepRaised env v S (.runOnce fuel ds) = S.runRaised env v fuel ds := by
    cases v with
    | l0 => cases hv
    | sp => cases hv
    | l1 => rfl
    | l2 => rfl
  obtain ⟨U, d, more, g1, g2, g3, g4⟩ := T.run_raised_at fuel he' hf
  have eU : U.placeRaised v = U := by cases v <;> first | rfl | cases hv
  rw [es, g2, eU] at hR
  obtain ⟨x1, x2, x3⟩ := (C71_place_l1l2 hR hv d).1 g1
  exact ⟨x1, U, more, by rw [es, g2, eU], g3, g4, x3, x2, fun d' => (C71_place_l1l2 hR hv d').2 ⟨rfl, x2, x3⟩⟩

/-- C71: a `test_run_once` of a plain class that raises has placed the entries of the list from the current position on and recorded their rows,
up to an entry that was already occupied, which it refused, or up to the entry that made the configuration wrap, which it has placed but not
recorded; in the second case all of the occupied sites are in the wrapping cluster. -/
theorem C71_test_raised (h : Reach env v L S) (hv : v.plain = true) {seq : List Nat} (T : Trace env v L S seq) {fuel : Nat} {ds : Nat → Draw}
    (he : step env v S (.testRunOnce fuel ds) = .error e) (hf : e ≠ .outOfFuel) :
    e = .assertionError ∧ ∃ n k, S.siteIds[S.currentIdx + n]? = some k ∧ ∃ S', stepRaised env v S (.testRunOnce fuel ds) = S' ∧
      Collected env v L S S' seq ((S.siteIds.drop S.currentIdx).take n) ∧ S'.siteIds = S.siteIds ∧ S'.selected = some k ∧
      ((k ∈ seq ++ (S.siteIds.drop S.currentIdx).take n ∧ Trace env v L S' (seq ++ (S.siteIds.drop S.currentIdx).take n) ∧
          S'.currentIdx = S.currentIdx + n) ∨
       (k ∉ seq ++ (S.siteIds.drop S.currentIdx).take n ∧ Trace env v L S' (seq ++ (S.siteIds.drop S.currentIdx).take (n + 1)) ∧
          S'.currentIdx = S.currentIdx + (n + 1) ∧ S'.afterWrapping = true ∧ S'.pcOccupied ≤ S'.getSiteCountPc)) := by
  have he' : Perc.testRunLoop env v fuel ds S = .error e := by
    simp only [step, Perc.testRunOnce] at he
    cases hr : Perc.testRunLoop env v fuel ds S with
    | error x => rw [hr] at he; exact congrArg Except.error (Except.error.inj he)
    | ok S1 => rw [hr] at he; cases he
  obtain ⟨g1, n, k, g2, g3, g4, g5, g6⟩ := T.test_raised hv fuel (h.sized hv) h.ids.1 he' hf
  exact ⟨g1, n, k, g2, _, rfl, g3, g4, g5, g6⟩

/-- C71: a `run_once` of the shortest path class that raises has placed the entries of the list from the current position up to one that was
already occupied; none of them completed a row or column of the wrapping cluster, and neither the stored point nor the result lists
nor `first_run` have changed. -/
theorem C71_sp_raised (h : Reach env .sp L S) {seq : List Nat} (T : Trace env .sp L S seq) {fuel : Nat} {ds : Nat → Draw}
    (he : step env .sp S (.runOnce fuel ds) = .error e) (hf : e ≠ .outOfFuel) :
    e = .assertionError ∧ ∃ n k, S.siteIds[S.currentIdx + n]? = some k ∧ k ∈ seq ++ (S.siteIds.drop S.currentIdx).take n ∧
      (∀ i j, ((S.siteIds.drop S.currentIdx).take n)[i]? = some j → ¬ Straight L (seq ++ (S.siteIds.drop S.currentIdx).take (i + 1)) j) ∧
      ∃ S', stepRaised env .sp S (.runOnce fuel ds) = S' ∧ Trace env .sp L S' (seq ++ (S.siteIds.drop S.currentIdx).take n) ∧
        S'.shortestP = S.shortestP ∧ S'.firstRun = S.firstRun ∧ S'.occProbList = S.occProbList ∧ S'.entropyList = S.entropyList ∧
        S'.orderWrapList = S.orderWrapList ∧ S'.orderLargestList = S.orderLargestList ∧ S'.siteIds = S.siteIds ∧
        S'.currentIdx = S.currentIdx + n ∧ S'.selected = some k := by
  have he' : Perc.spLoop env fuel S = .error e := by
    simp only [step, Perc.runOnceV, Perc.spRunOnce] at he
    cases hr : Perc.spLoop env fuel S with
    | error x => rw [hr] at he; exact congrArg Except.error (Except.error.inj he)
    | ok r => rw [hr] at he; cases he
  obtain ⟨g1, n, k, g2, g3, g4, g5, g6, g7, g8, g9, g10⟩ := T.sp_raised fuel (h.sized rfl) h.ids.1 he' hf
  exact ⟨g1, n, k, g2, g3, g5, _, rfl, g4, g7, g6.firstRun, g6.occProb, g6.entList, g6.owList, g6.olList, g8, g9, g10⟩

/-- C71: `swap_ids(i, j)` in any mode and class: it raises (IndexError) exactly when the ids differ and one of them is no site id or its recorded
position lies beyond the end of the list; if the position of `j` is the bad one, the entry at the position of `i` has been replaced
already, otherwise nothing has changed. -/
theorem C71_swap_raised (h : Reach env v L S) (i j : Nat) :
    (S.swapIds i j = .error e ↔ e = .indexError ∧ i ≠ j ∧
      ∀ p q, S.revIds[i]? = some p → S.revIds[j]? = some q → S.siteIds.length ≤ p ∨ S.siteIds.length ≤ q) ∧
    (∀ k, S.revIds[k]? = none ↔ L * L ≤ k) ∧
    ∀ e', S.swapIds i j = .error e' → (S.swapRaised i j).revIds = S.revIds ∧
      ((∃ p, S.revIds[i]? = some p ∧ p < S.siteIds.length ∧ j < L * L ∧ S.swapRaised i j = { S with siteIds := S.siteIds.set p j }) ∨
       ((∀ p, S.revIds[i]? = some p → S.siteIds.length ≤ p ∨ L * L ≤ j) ∧ S.swapRaised i j = S)) := by
  have hlen := h.ids.2
  have hnone : ∀ k, S.revIds[k]? = none ↔ L * L ≤ k := fun k => by rw [List.getElem?_eq_none_iff, hlen]
  refine ⟨?_, hnone, ?_⟩
  · by_cases hij : i = j
    · subst hij
      simp only [Perc.swapIds, if_true]
      exact ⟨fun h => (by cases h), fun h => absurd rfl h.2.1⟩
    · cases hi : S.revIds[i]? with
      | none => rw [swap_none hij (Or.inl hi)]; exact ⟨fun h => ⟨(Except.error.inj h).symm, hij, fun _ _ h => (by cases h)⟩, fun h => by rw [h.1]⟩
      | some p =>
        cases hj : S.revIds[j]? with
        | none => rw [swap_none hij (Or.inr hj)]; exact ⟨fun h => ⟨(Except.error.inj h).symm, hij, fun _ _ _ h => (by cases h)⟩, fun h => by rw [h.1]⟩
        | some q =>
          by_cases hb : S.siteIds.length ≤ p ∨ S.siteIds.length ≤ q
          · rw [swap_bad hij hi hj hb]
            refine ⟨fun h => ⟨(Except.error.inj h).symm, hij, fun p' q' h1 h2 => ?_⟩, fun h => by rw [h.1]⟩
            rw [← Option.some.inj h1, ← Option.some.inj h2]; exact hb
          · obtain ⟨S1, h1⟩ := swap_good hij hi hj (by omega) (by omega)
            rw [h1]
            exact ⟨fun h => (by cases h), fun h => absurd (h.2.2 p q rfl rfl) hb⟩
  · intro e' he'
    have hij : i ≠ j := fun hij => by subst hij; simp [Perc.swapIds] at he'
    cases hi : S.revIds[i]? with
    | none =>
      have : S.swapRaised i j = S := by simp only [Perc.swapRaised, hi]
      exact ⟨by rw [this], Or.inr ⟨fun _ h => (by cases h), this⟩⟩
    | some p =>
      cases hj : S.revIds[j]? with
      | none =>
        have : S.swapRaised i j = S := by simp only [Perc.swapRaised, hi, hj]
        exact ⟨by rw [this], Or.inr ⟨fun _ _ => Or.inr ((hnone j).1 hj), this⟩⟩
      | some q =>
        have hs : S.swapRaised i j = { S with siteIds := S.siteIds.set p j } := by simp only [Perc.swapRaised, hi, hj]
        refine ⟨by rw [hs], ?_⟩
        by_cases hp : p < S.siteIds.length
        · exact Or.inl ⟨p, rfl, hp, Nat.lt_of_not_le (fun h => by rw [(hnone j).2 h] at hj; cases hj), hs⟩
        · refine Or.inr ⟨fun p' h => Or.inl (by rw [← Option.some.inj h]; omega), ?_⟩
          rw [hs, List.set_eq_of_length_le (by omega)]

/-! ### Examples -/

/-- `C71_swap_raised`: a custom list shorter than the list before it; site 8 keeps the position it had in the longer list.  The
exchange of 1 and 8 writes 8 over 1 and then raises: site 1 is lost. -/
example : ∃ S, Reach demoEnv .l0 3 S ∧ S.siteIds = [1, 2] ∧ S.swapIds 1 8 = .error .indexError ∧ (S.swapRaised 1 8).siteIds = [8, 2] := by
  obtain ⟨S, h, hp⟩ := checkTry_reach (env := demoEnv) (v := .l0) (L := 3)
    (ops := [.setIds [0, 1, 2, 3, 4, 5, 6, 7, 8] true fun i => i, .setIds [1, 2] true fun i => i])
    (p := fun S => S.siteIds == [1, 2] && (isErr (S.swapIds 1 8) .indexError && (S.swapRaised 1 8).siteIds == [8, 2])) (by decide +kernel)
  simp only [Bool.and_eq_true, beq_iff_eq, isErr_iff] at hp
  exact ⟨S, h, hp⟩

/-- `C71_test_raised`, second case: row 0 wraps and is all there is, so the assertion of `test_run_once` fails. -/
example : ∃ S, Reach demoEnv .l0 3 S ∧ step demoEnv .l0 S (.testRunOnce 9 fun _ => ⟨0, 0⟩) = .error .assertionError ∧ S.siteIds = [0, 1, 2, 3] ∧
    (stepRaised demoEnv .l0 S (.testRunOnce 9 fun _ => ⟨0, 0⟩)).afterWrapping = true ∧
    (stepRaised demoEnv .l0 S (.testRunOnce 9 fun _ => ⟨0, 0⟩)).entropyList.length = 2 := by
  obtain ⟨S, h, hp⟩ := checkTry_reach (env := demoEnv) (v := .l0) (L := 3) (ops := [.setIds [0, 1, 2, 3] false fun i => i])
    (p := fun S => isErr (step demoEnv .l0 S (.testRunOnce 9 fun _ => ⟨0, 0⟩)) .assertionError && (S.siteIds == [0, 1, 2, 3] &&
      ((stepRaised demoEnv .l0 S (.testRunOnce 9 fun _ => ⟨0, 0⟩)).afterWrapping &&
        (stepRaised demoEnv .l0 S (.testRunOnce 9 fun _ => ⟨0, 0⟩)).entropyList.length == 2))) (by decide +kernel)
  simp only [Bool.and_eq_true, beq_iff_eq, isErr_iff] at hp
  exact ⟨S, h, hp⟩

/-- `C71_sp_raised`: the list repeats a site before a straight path exists. -/
example : ∃ S, Reach demoEnv .sp 3 S ∧ step demoEnv .sp S (.runOnce 9 fun _ => ⟨0, 0⟩) = .error .assertionError ∧ S.siteIds = [0, 4, 0, 8] ∧
    (stepRaised demoEnv .sp S (.runOnce 9 fun _ => ⟨0, 0⟩)).currentIdx = 2 := by
  obtain ⟨S, h, hp⟩ := checkTry_reach (env := demoEnv) (v := .sp) (L := 3) (ops := [.setIds [0, 4, 0, 8] false fun i => i])
    (p := fun S => isErr (step demoEnv .sp S (.runOnce 9 fun _ => ⟨0, 0⟩)) .assertionError && (S.siteIds == [0, 4, 0, 8] &&
      (stepRaised demoEnv .sp S (.runOnce 9 fun _ => ⟨0, 0⟩)).currentIdx == 2)) (by decide +kernel)
  simp only [Bool.and_eq_true, beq_iff_eq, isErr_iff] at hp
  exact ⟨S, h, hp⟩

/-- `C71_run_raised_l1l2`: L1 with a list of one site. -/
example : ∃ S, Reach demoEnv .l1 3 S ∧ step demoEnv .l1 S (.runOnce 30 fun i => ⟨0, i⟩) = .error .valueError ∧
    (stepRaised demoEnv .l1 S (.runOnce 30 fun i => ⟨0, i⟩)).entropyList.length = 5 := by
  obtain ⟨S, h, hp⟩ := checkTry_reach (env := demoEnv) (v := .l1) (L := 3) (ops := [.setIds [4] false fun i => i])
    (p := fun S => isErr (step demoEnv .l1 S (.runOnce 30 fun i => ⟨0, i⟩)) .valueError &&
      (stepRaised demoEnv .l1 S (.runOnce 30 fun i => ⟨0, i⟩)).entropyList.length == 5) (by decide +kernel)
  simp only [Bool.and_eq_true, beq_iff_eq, isErr_iff] at hp
  exact ⟨S, h, hp⟩

end SqPerc
