import Verif.Model.Tests
import Verif.Props.Closing
import Verif.Props.Runs
import Verif.Props.Lists
import Verif.Props.ShortestPath
/-
C64: the project's own tests pass, for every seed and every lattice length from 3 on.
-/
namespace SqPerc

variable {α : Type} {env : Env α} {L : Nat} {S S' S1 S2 : Perc α} {v : Variant} {seq : List Nat}

/-- `occupied_site_count` is the number of sites only if every site is occupied. -/
theorem Trace.full_of_count (T : Trace env v L S seq) (h : S.occupiedCount = S.lat.siteCount) : ∀ s < L * L, S.Occ s := by
  obtain ⟨_, A, M, hA, I⟩ := T.sim
  have hl : seq.length = L * L := by rw [← I.count, ← M.count, h, M.lat, mkLat_siteCount]
  intro s hs
  rw [T.reports.occ]
  exact full_of_perm I.nd hl (fun x hx => ((I.occ x).2 hx).1) hs

/-- `test_lattice()` passes at every stage of a run, except on the full lattices of length 2 or less. -/
theorem Trace.testLattice (hL : 2 ≤ L) (T : Trace env v L S seq) (h : 3 ≤ L ∨ ¬ ∀ s < L * L, S.Occ s) : S.testLattice = .ok () := by
  by_cases hf : ∀ s < L * L, S.Occ s
  · exact (C26_full_lattice (h.resolve_right (fun h => h hf)) T hf).2.2.2.2.2.2.2.2
  · obtain ⟨_, A, M, hA, I⟩ := T.sim
    have hof : LatticeOf L S.lat := .traced T
    simp only [Perc.testLattice, bind_unit_ok_iff]
    refine ⟨(C01_distinct hof hL).2.2, testRelativeIndex_sim M hA, (C01_scans_pass hof).2, (C01_scans_pass hof).1, ?_⟩
    rw [if_neg fun h0 => hf (T.full_of_count h0)]
    rfl

/-- A placement call that returns True, followed by `detect_wrapping`, whether a site was placed or not. -/
theorem Trace.placeDetect {d : Draw} (T : Trace env v L S seq) (hsel : seq ≠ [] → S.selected ≠ none)
    (hp : S.placeOneSite env v d = .ok (S1, true)) :
    ∃ S2 w seq2, S1.detectWrapping = .ok (S2, w) ∧ Trace env v L S2 seq2 ∧ seq2 ≠ [] ∧ S2.selected ≠ none ∧ (∀ s, S2.Occ s ↔ S1.Occ s) ∧
      (seq2 = seq ∨ ∃ k, seq2 = seq ++ [k]) := by
  obtain ⟨_, A, M, hA, I⟩ := T.sim
  obtain ⟨A1, hst, M1⟩ := placeOneSite_steps M hA.inv hp
  have hI1 := hA.inv.steps hst
  by_cases hf : S1.selectionFlag = some .success
  · have hs1 : S1.selected ≠ none := by
      obtain ⟨_, _, k, hk, _⟩ := (placeOneSite_occ M hA.inv hp).resolve_right (fun h => h.1 hf)
      rw [hk]; simp
    obtain ⟨S2, w, hd⟩ := detectWrapping_ok M1 hI1 hs1
    obtain ⟨k, _, hk, T2⟩ := T.place hp hf hd
    exact ⟨S2, w, _, hd, T2, by simp, by rw [hk]; simp, (detectWrapping_keep M1 hI1 hd).2.1, .inr ⟨k, rfl⟩⟩
  · have hne : seq ≠ [] := by
      rintro rfl
      refine hf (place_on_empty M hA.inv (fun s hs => ?_) hp)
      have := (T.reports.occ s).1 hs
      simp at this
    have hs1 : S1.selected ≠ none := by
      obtain ⟨_, V1, _, h | h | h⟩ := placeOneSite_sim M hA.inv hp
      · exact absurd h.1 hf
      · rw [h.2.2.sel]; show A.sel ≠ none; rw [← M.sel]; exact hsel hne
      · exact absurd h.2.1 (by simp)
    obtain ⟨S2, w, hd⟩ := detectWrapping_ok M1 hI1 hs1
    obtain ⟨K, hocc, _⟩ := detectWrapping_keep M1 hI1 hd
    exact ⟨S2, w, seq, hd, (T.skipped hp hf).detect hd, hne, by rw [K.selected]; exact hs1, hocc, .inl rfl⟩

/-- The final call, which returns False. -/
theorem Trace.placeLast {d : Draw} (T : Trace env v L S seq) (H : Live env v L S) (hp : S.placeOneSite env v d = .ok (S1, false)) :
    Trace env v L S1 seq ∧ ∀ s < L * L, S1.Occ s := by
  obtain ⟨_, A, M, hA, I⟩ := T.sim
  obtain ⟨S', b, p1, _, _, hf⟩ := H.place d
  rw [hp] at p1
  obtain ⟨rfl, rfl⟩ := Prod.mk.inj (Except.ok.inj p1)
  rcases placeOneSite_occ M hA.inv hp with h | h
  · exact absurd h.2.1 (by simp)
  · exact ⟨T.skipped hp h.1, fun s hs => (h.2.1 s).2 ((hf rfl).2.2 s hs)⟩

/-- The loop of the tests: for `L ≥ 3`, and without the calls of `test_lattice` for every `L`, it ends with every site occupied and
`P1` the order parameter of the full lattice. -/
theorem testsLoop_run {check : Bool} (hc : check = true → 3 ≤ L) (fuel : Nat) : ∀ {S : Perc α} {seq : List Nat} (ds : Nat → Draw) (P1 : Option α),
    DefReach env v L S → Trace env v L S seq → (seq ≠ [] → S.selected ≠ none) → (seq ≠ [] → P1 = some (ordW env L seq)) →
    S.budget L v < fuel → ∃ S' seq', testsLoop env v check fuel ds S P1 = .ok (S', some (ordW env L seq')) ∧ DefReach env v L S' ∧
      Trace env v L S' seq' ∧ ∀ s < L * L, S'.Occ s := by
  induction fuel with
  | zero => intro S seq ds P1 D _ _ _ h; have := D.live.nonneg; simp at h; omega
  | succ fuel ih =>
    intro S seq ds P1 D T hsel hP h
    have H := D.live
    obtain ⟨S1, b, p1, H1, ht, hf⟩ := H.place (ds 0)
    have D1 : DefReach env v _ S1 := .step (.place (ds 0)) rfl D (by simp only [SqPerc.step]; rw [p1]; rfl)
    simp only [testsLoop]
    rw [p1]
    cases b with
    | false =>
      obtain ⟨T1, h1⟩ := T.placeLast H p1
      have hne : seq ≠ [] := by
        rintro rfl
        have h0 : 0 < L * L := Nat.mul_pos T.sim.1 T.sim.1
        have := (T1.reports.occ 0).1 (h1 0 h0)
        simp at this
      exact ⟨S1, seq, by rw [hP hne]; rfl, D1, T1, h1⟩
    | true =>
      obtain ⟨c1, c2⟩ := ht rfl
      obtain ⟨S2, w, seq2, hd, T2, hne, hs2, _⟩ := T.placeDetect hsel p1
      obtain ⟨_, hb2⟩ := H1.detect hd
      have D2 : DefReach env v _ S2 := .step .detect rfl D1 (by simp only [SqPerc.step]; rw [hd]; rfl)
      have e : (do
          if check then S2.testLattice
          let p ← S2.orderWrapping env
          testsLoop env v check fuel (fun i => ds (i + 1)) S2 (some p)) =
          testsLoop env v check fuel (fun i => ds (i + 1)) S2 (some (ordW env L seq2)) := by
        rw [T2.ordW]
        cases check with
        | false => rfl
        | true =>
          have hL := hc rfl
          rw [if_pos rfl, T2.testLattice (by omega) (.inl hL)]; rfl
      show ∃ S' seq', (S1.detectWrapping >>= _) = _ ∧ _
      rw [hd]
      obtain ⟨S', seq', e', h'⟩ := ih (fun i => ds (i + 1)) (some (ordW env L seq2)) D2 T2 (fun _ => hs2) (fun _ => rfl) (by push_cast at h; omega)
      exact ⟨S', seq', e.trans e', h'⟩

/-- The loop with `test_lattice` for `L = 2`: an AssertionError as soon as the lattice is full. -/
theorem testsLoop_two (fuel : Nat) : ∀ {S : Perc α} {seq : List Nat} (ds : Nat → Draw) (P1 : Option α),
    DefReach env v 2 S → Trace env v 2 S seq → (seq ≠ [] → S.selected ≠ none) → (¬ ∀ s < 2 * 2, S.Occ s) →
    S.budget 2 v < fuel → testsLoop env v true fuel ds S P1 = .error .assertionError := by
  induction fuel with
  | zero => intro S seq ds P1 D _ _ _ h; have := D.live.nonneg; simp at h; omega
  | succ fuel ih =>
    intro S seq ds P1 D T hsel hnf h
    have H := D.live
    obtain ⟨S1, b, p1, H1, ht, hf⟩ := H.place (ds 0)
    have D1 : DefReach env v _ S1 := .step (.place (ds 0)) rfl D (by simp only [SqPerc.step]; rw [p1]; rfl)
    simp only [testsLoop]
    rw [p1]
    cases b with
    | false => exact absurd (hf rfl).2.2 hnf
    | true =>
      obtain ⟨c1, c2⟩ := ht rfl
      obtain ⟨S2, w, seq2, hd, T2, hne, hs2, _⟩ := T.placeDetect hsel p1
      obtain ⟨_, hb2⟩ := H1.detect hd
      have D2 : DefReach env v _ S2 := .step .detect rfl D1 (by simp only [SqPerc.step]; rw [hd]; rfl)
      show (S1.detectWrapping >>= _) = _
      rw [hd]
      show (S2.testLattice >>= _) = _
      by_cases hfull : ∀ s < 2 * 2, S2.Occ s
      · rw [(C26_small_lattice_fails (by omega) D2.reach hfull).1]; rfl
      · rw [T2.testLattice (by omega) (.inr hfull)]
        show (S2.orderWrapping env >>= _) = _
        rw [T2.ordW]
        exact ih _ _ D2 T2 (fun _ => hs2) hfull (show S2.budget 2 v < fuel by push_cast at h; omega)

theorem Fresh.sel_inv {P : Prop} (_ : Fresh env v L S) : ([] : List Nat) ≠ [] → P := fun h => absurd rfl h

/-- What follows the loop, on a full lattice. -/
theorem testsEnd_ok {isOne : α → Bool} (hone : ∀ n, 0 < n → isOne (env.ar.div (env.ar.ofNat n) (env.ar.ofNat n)) = true) (hL : 3 ≤ L)
    (T : Trace env v L S seq) (hfull : ∀ s < L * L, S.Occ s) : testsEnd isOne S (some (ordW env L seq)) = .ok () := by
  obtain ⟨_, _, _, _, _, h1, _, h2, h3⟩ := C26_full_lattice hL T hfull
  have h0 : 0 < L * L := Nat.mul_pos (by omega) (by omega)
  have e : ordW env L seq = env.ar.div (env.ar.ofNat (2 * (L * L))) (env.ar.ofNat (2 * (L * L))) := by
    rw [T.ordW] at h1; exact Except.ok.inj h1
  simp only [testsEnd, bind_unit_ok_iff, pyAssert_ok_iff]
  exact ⟨by rw [e]; exact hone _ (by omega), h2, h3⟩

/-- C64: `test_simulation_L0_seed`, and the same test of the L1 and L2 classes, pass for every lattice length from 3 on and all random
numbers. -/
theorem C64_seed {isOne : α → Bool} (hone : ∀ n, 0 < n → isOne (env.ar.div (env.ar.ofNat n) (env.ar.ofNat n)) = true) (hL : 3 ≤ L)
    {fuel : Nat} (hf : initBudget L v < fuel) (draws : Nat → Nat) (ds : Nat → Draw) :
    testSimulationSeed env isOne v L fuel draws ds = .ok () := by
  obtain ⟨S, e, F⟩ := fresh_exists env v (L := L) (by omega) draws
  obtain ⟨S', seq', e1, _, T', h'⟩ := testsLoop_run (check := true) (fun _ => hL) fuel ds none F.defReach F.trace F.sel_inv F.sel_inv
    (by rw [F.live.2.1]; exact hf)
  simp only [testSimulationSeed, e, bind, Except.bind, F.trace.testLattice (by omega) (.inl hL), e1]
  exact testsEnd_ok hone hL T' h'

/-- C64: on the lattices of length 1 and 2 that test fails. -/
theorem C64_seed_small (isOne : α → Bool) (h0 : 0 < L) (hL : L ≤ 2) {fuel : Nat} (hf : initBudget L v < fuel) (draws : Nat → Nat)
    (ds : Nat → Draw) : testSimulationSeed env isOne v L fuel draws ds = .error .assertionError := by
  obtain ⟨S, e, F⟩ := fresh_exists env v h0 draws
  obtain rfl | rfl : L = 1 ∨ L = 2 := by omega
  · have : S.testLattice = .error .assertionError := by
      simp only [Perc.testLattice]
      rw [(C01_length_one (.used F.defReach.reach)).2.2]; rfl
    simp only [testSimulationSeed, e, bind, Except.bind, this]
  · have hnf : ¬ ∀ s < 2 * 2, S.Occ s := fun h => F.live.2.2.2 0 (h 0 (by omega))
    simp only [testSimulationSeed, e, bind, Except.bind, F.trace.testLattice (by omega) (.inr hnf),
      testsLoop_two fuel ds none F.defReach F.trace F.sel_inv hnf (by rw [F.live.2.1]; exact hf)]

/-- C64: `test_simulation_L0_reset` and its L1 and L2 versions pass for every lattice length from 3 on. -/
theorem C64_reset {isOne : α → Bool} (hone : ∀ n, 0 < n → isOne (env.ar.div (env.ar.ofNat n) (env.ar.ofNat n)) = true) (hL : 3 ≤ L)
    {fuel : Nat} (hf : initBudget L v < fuel) (draws draws' : Nat → Nat) (ds : Nat → Draw) :
    testSimulationReset env isOne v L fuel draws draws' ds = .ok () := by
  obtain ⟨S, e, F0⟩ := fresh_exists env v (L := L) (by omega) draws
  obtain ⟨S0, er, _⟩ := F0.live.1.reset draws'
  have F : Fresh env v L S0 := .reset F0.defReach er
  obtain ⟨S', seq', e1, _, T', h'⟩ := testsLoop_run (check := false) (fun h => by cases h) fuel ds none F.defReach F.trace F.sel_inv F.sel_inv
    (by rw [F.live.2.1]; exact hf)
  simp only [testSimulationReset, e, bind, Except.bind, er, e1]
  exact testsEnd_ok hone hL T' h'

/-- C64: on the lattices of length 1 and 2 it fails, because no wrapping is reported and `P1` ends as 0. -/
theorem C64_reset_small {isOne : α → Bool} (hzero : isOne (env.ar.ofNat 0) = false) (h0 : 0 < L) (hL : L ≤ 2)
    {fuel : Nat} (hf : initBudget L v < fuel) (draws draws' : Nat → Nat) (ds : Nat → Draw) :
    testSimulationReset env isOne v L fuel draws draws' ds = .error .assertionError := by
  obtain ⟨S, e, F0⟩ := fresh_exists env v h0 draws
  obtain ⟨S0, er, _⟩ := F0.live.1.reset draws'
  have F : Fresh env v L S0 := .reset F0.defReach er
  obtain ⟨S', seq', e1, _, T', h'⟩ := testsLoop_run (check := false) (fun h => by cases h) fuel ds none F.defReach F.trace F.sel_inv F.sel_inv
    (by rw [F.live.2.1]; exact hf)
  have e0 : ordW env L seq' = env.ar.ofNat 0 := by
    unfold ordW; rw [if_neg]; intro h; have := h.1; omega
  have : isOne (ordW env L seq') = false := by rw [e0]; exact hzero
  simp only [testSimulationReset, e, bind, Except.bind, er, e1, testsEnd, Option.any_some, this]
  rfl

/-- A complete run of one of the three classes, from a new or reset object. -/
theorem Fresh.runV (F : Fresh env v L S) (hv : v ≠ .sp) {fuel : Nat} (ds : Nat → Draw) (hf : initBudget L v < fuel) :
    ∃ S' seq, S.runOnceV env v fuel ds = .ok S' ∧ DefReach env v L S' ∧ Trace env v L S' seq ∧ ∀ s < L * L, S'.Occ s := by
  obtain ⟨S', seq, e, T, _, h, _⟩ := F.run (ds := ds) hf
  have e' : S.runOnceV env v fuel ds = .ok S' := by cases v <;> first | exact e | exact absurd rfl hv
  exact ⟨S', seq, e', .step (.runOnce fuel ds) rfl F.defReach e', T, h⟩

theorem DefReach.realisation (D : DefReach env v L S) (hv : v ≠ .sp) (r : RunDraws) (hf : initBudget L v < r.fuel) :
    ∃ S' seq, SqPerc.realisation env v S r = .ok S' ∧ DefReach env v L S' ∧ Trace env v L S' seq ∧ ∀ s < L * L, S'.Occ s := by
  obtain ⟨S0, er, _⟩ := D.live.reset r.shuffle
  have F : Fresh env v L S0 := .reset D er
  obtain ⟨S', seq, e, h⟩ := F.runV hv r.steps hf
  exact ⟨S', seq, by simp only [SqPerc.realisation, er, bind, Except.bind, e], h⟩

/-- C64: the body of `test_simulation_L0_different_lengths` (and L1, L2) passes for every lattice length from 3 on and fails for the lengths
1 and 2. -/
theorem C64_lengths (h0 : 0 < L) (hv : v ≠ .sp) (draws : Nat → Nat) (r : RunDraws) (hf : initBudget L v < r.fuel) :
    testDifferentLengths env v L draws r = if 3 ≤ L then .ok () else .error .assertionError := by
  obtain ⟨S, e, F⟩ := fresh_exists env v h0 draws
  obtain ⟨S', seq, e', D, T, h⟩ := F.defReach.realisation hv r hf
  simp only [testDifferentLengths, e, bind, Except.bind, e']
  by_cases hL : 3 ≤ L
  · obtain ⟨_, _, _, _, _, _, _, h2, h3⟩ := C26_full_lattice hL T h
    simp only [h2, h3, if_pos hL]
  · rw [if_neg hL]
    simp only [(C26_small_lattice_fails (by omega) D.reach h).2]

/-- C64: `test_simulation_L0_different_lengths_parametrize` (and L1, L2) passes for every lattice length from 3 on and fails for the lengths
1 and 2. -/
theorem C64_parametrize (h0 : 0 < L) (hv : v ≠ .sp) (draws : Nat → Nat) {fuel : Nat} (ds : Nat → Draw) (hf' : initBudget L v < fuel)
    (r : RunDraws) (hf : initBudget L v < r.fuel) :
    testParametrize env v L draws fuel ds r = if 3 ≤ L then .ok () else .error .assertionError := by
  obtain ⟨S, e, F⟩ := fresh_exists env v h0 draws
  obtain ⟨S1, seq1, e1, D1, T1, h1⟩ := F.runV hv ds hf'
  obtain ⟨S', seq, e', D, T, h⟩ := D1.realisation hv r hf
  simp only [testParametrize, e, bind, Except.bind, e1]
  by_cases hL : 3 ≤ L
  · obtain ⟨_, _, _, _, _, _, _, h2, h3⟩ := C26_full_lattice hL T1 h1
    obtain ⟨_, _, _, _, _, _, _, h2', h3'⟩ := C26_full_lattice hL T h
    simp only [h2, h3, e', h2', h3', if_pos hL]
  · rw [if_neg hL]
    simp only [(C26_small_lattice_fails (by omega) D1.reach h1).2]

/-! ### Custom lists without detection -/

/-- `while place_one_site(): pass` on a list without repetitions: all listed sites are placed. -/
theorem placeAll_ready {ids : List Nat} (hv : v.plain = true) (hnd : ids.Nodup) (fuel : Nat) : ∀ {S : Perc α} {i : Nat} (ds : Nat → Draw),
    L0Ready L S ids i → Reach env v L S → ids.length - i < fuel →
    ∃ S', placeAll env v fuel ds S = .ok S' ∧ Reach env v L S' ∧ L0Ready L S' ids ids.length ∧
      (i < ids.length → ∃ Sp S1 d, Reach env v L Sp ∧ L0Ready L Sp ids (ids.length - 1) ∧ Sp.placeOneSite env v d = .ok (S1, true) ∧
        S1.selectionFlag = some .success ∧ Reach env v L S1 ∧ L0Ready L S1 ids ids.length ∧
        S' = { S1 with selectionFlag := some .emptySiteList }) := by
  induction fuel with
  | zero => intro S i ds _ _ h; omega
  | succ fuel ih =>
    intro S i ds H R h
    obtain ⟨_, A, M, hA⟩ := R.sim
    by_cases hi : i < ids.length
    · have hget := List.getElem?_eq_getElem hi
      have hnot : ids[i] ∉ ids.take i := by
        intro hm
        obtain ⟨j, hj, e⟩ := List.mem_take_iff_getElem.1 hm
        have := (List.Nodup.getElem_inj_iff hnd).1 e
        omega
      obtain ⟨S1, p1, f1, _, H1⟩ := H.place M hA.inv hv hget hnot (ds 0)
      have R1 : Reach env v L S1 := .step (.place (ds 0)) R (by simp only [SqPerc.step]; rw [p1]; rfl)
      obtain ⟨S', e, R', H', hl⟩ := ih (fun i => ds (i + 1)) H1 R1 (by omega)
      have e0 : placeAll env v (fuel + 1) ds S = .ok S' := by
        simp only [placeAll, p1, bind, Except.bind]; exact e
      refine ⟨S', e0, R', H', fun _ => ?_⟩
      by_cases hi1 : i + 1 < ids.length
      · exact hl hi1
      · have hi2 : i = ids.length - 1 := by omega
        have hi3 : i + 1 = ids.length := by omega
        have H1' : L0Ready L S1 ids ids.length := hi3 ▸ H1
        refine ⟨S, S1, ds 0, R, hi2 ▸ H, p1, f1, R1, H1', ?_⟩
        obtain ⟨S2, p2, rfl, _⟩ := H1'.done (env := env) hv (ds 1)
        cases fuel with
        | zero => omega
        | succ fuel =>
          simp only [placeAll, Nat.zero_add, p2, bind, Except.bind] at e
          exact (Except.ok.inj e).symm
    · have hi3 : i = ids.length := Nat.le_antisymm H.le (by omega)
      subst hi3
      obtain ⟨S1, p1, _, H1⟩ := H.done (env := env) hv (ds 0)
      refine ⟨S1, by simp only [placeAll, p1, bind, Except.bind]; rfl, ?_, H1, fun h => absurd h hi⟩
      exact .step (.place (ds 0)) R (by simp only [SqPerc.step]; rw [p1]; rfl)

/-- `detect_wrapping` does not look at the selection flag. -/
theorem detectWrapping_setFlag {w : Bool} (f : Option SelectionState) (h : S.detectWrapping = .ok (S1, w)) :
    ∃ S2, (Perc.detectWrapping { S with selectionFlag := f }) = .ok (S2, w) := by
  have := detectWrapping_put S { S with selectionFlag := f } rfl
  rw [h] at this
  exact ⟨_, this⟩

/-- C64: a site order is placed completely without detection, possibly in several portions; if the sites without the last one do not wrap,
one call of `detect_wrapping` at the end answers whether all of them wrap. -/
theorem C64_one_detection (hL : 3 ≤ L) {ids : List Nat} {i : Nat} (hv : v.plain = true) (hnd : ids.Nodup) (H : L0Ready L S ids i)
    (R : Reach env v L S) (hi : i < ids.length) (hnw : ¬ Wraps L (· ∈ ids.dropLast)) {fuel : Nat} (hf : ids.length - i < fuel)
    (ds : Nat → Draw) : ∃ S' S2 w, placeAll env v fuel ds S = .ok S' ∧ S'.detectWrapping = .ok (S2, w) ∧ (w = true ↔ Wraps L (· ∈ ids)) := by
  obtain ⟨S', e, _, _, hl⟩ := placeAll_ready hv hnd fuel ds H R hf
  obtain ⟨Sp, S1, d, Rp, Hp, p1, f1, R1, H1, rfl⟩ := hl hi
  have hocc : Sp.Occ = (· ∈ ids.dropLast) := by
    funext s; rw [List.dropLast_eq_take]; exact propext (Hp.occ s)
  have hocc1 : S1.Occ = (· ∈ ids) := by
    funext s; have := H1.occ s; rw [List.take_length] at this; exact propext this
  obtain ⟨_, A1, M1, hA1⟩ := R1.sim
  have hs1 : S1.selected ≠ none := by
    obtain ⟨_, Ap, Mp, hAp⟩ := Rp.sim
    obtain ⟨_, _, k, hk, _⟩ := (placeOneSite_occ Mp hAp.inv p1).resolve_right (fun h => h.1 f1)
    rw [hk]; simp
  obtain ⟨S2, w, hd⟩ := detectWrapping_ok M1 hA1.inv hs1
  obtain ⟨S3, hd'⟩ := detectWrapping_setFlag (some .emptySiteList) hd
  refine ⟨_, S3, w, e, hd', ?_⟩
  have := C63_last_call hL Rp (by rw [hocc]; exact hnw) p1 f1 hd
  rwa [hocc1] at this

/-- The sites of `custome_lattice_config_1` do not wrap before the last one, 24, is placed. -/
theorem config_before : ¬ Wraps 6 (· ∈ (configIds ++ [26]).map Int.toNat) := by
  obtain ⟨S, q, T, h⟩ := checkTrace_trace (env := demoEnv) (v := .l0) (L := 6) (ids := configIds ++ [26]) (n := 12)
    (p := fun S q => !S.afterWrapping && decide (q = ((configIds ++ [26] : List Int).map Int.toNat : List Nat))) (by decide +kernel)
  simp only [Bool.and_eq_true, decide_eq_true_eq, Bool.not_eq_true'] at h
  obtain ⟨h1, rfl⟩ := h
  intro hw
  have := T.aw_iff.2 ⟨by omega, hw⟩
  rw [h1] at this; cases this

/-- They wrap afterwards. -/
theorem config_after : Wraps 6 (· ∈ (configIds ++ configSpecial).map Int.toNat) := by
  obtain ⟨S, q, T, h⟩ := checkTrace_trace (env := demoEnv) (v := .l0) (L := 6) (ids := configIds ++ configSpecial) (n := 13)
    (p := fun S q => S.afterWrapping && decide (q = (configIds ++ configSpecial).map Int.toNat)) (by decide +kernel)
  simp only [Bool.and_eq_true, decide_eq_true_eq] at h
  obtain ⟨h1, rfl⟩ := h
  exact (T.aw_iff.1 h1).2

/-- C64: `custome_lattice_config_1` passes, whatever the shuffles. -/
theorem C64_config1 {fuel : Nat} (hf : 11 < fuel) (draws draws' : Nat → Nat) : testConfig1 env fuel draws draws' = .ok () := by
  obtain ⟨S, e, F⟩ := fresh_exists env .l0 (L := 6) (by omega) draws
  have R := F.defReach.reach
  obtain ⟨rev, e1, _⟩ := setIds_on R (ids := configIds) (by decide) (by decide) draws'
  have hperm := pyShuffle_perm draws' (configIds.map Int.toNat)
  obtain ⟨ids, hids⟩ : ∃ ids, ids = pyShuffle draws' (configIds.map Int.toNat) := ⟨_, rfl⟩
  rw [← hids] at hperm e1
  have hlen : ids.length = 11 := hperm.length_eq
  have hnd : ids.Nodup := hperm.nodup_iff.2 (by decide)
  have hlt : ∀ k ∈ ids, k < 6 * 6 := fun k hk => by
    have hk' := hperm.mem_iff.1 hk
    clear hk; revert k; decide
  have R1 := Reach.step (.setIds configIds true draws') R e1
  have H1 : L0Ready 6 { S with siteIds := ids, revIds := rev, modeCustom := true, doShuffle := true, maxIter := configIds.length } ids 0 := by
    refine ⟨rfl, hlen.symm, F.live.2.2.1, by omega, hlt, fun s => ?_⟩
    rw [List.take_zero]
    exact ⟨fun h => absurd h (F.live.2.2.2 s), fun h => by cases h⟩
  obtain ⟨S2, e2, R2, H2, _⟩ := placeAll_ready (env := env) (v := .l0) rfl hnd fuel (fun _ => ⟨0, 0⟩) H1 R1 (by omega)
  obtain ⟨_, A2, M2, hA2⟩ := R2.sim
  have hmap : (ids.map Int.ofNat ++ configSpecial).map Int.toNat = ids ++ [26, 24] := by
    rw [List.map_append, List.map_map]
    exact congrArg (· ++ _) (List.map_id _)
  have hr : ∀ i ∈ ids.map Int.ofNat ++ configSpecial, 0 ≤ i ∧ i < ((6 : Nat) : Int) * (6 : Nat) := by
    intro i hi
    rcases List.mem_append.1 hi with h | h
    · obtain ⟨k, hk, rfl⟩ := List.mem_map.1 h
      have := hlt k hk
      exact ⟨Int.natCast_nonneg k, show (k : Int) < _ by omega⟩
    · clear hi; revert i; decide
  have e3 := setIds_off (ids := ids.map Int.ofNat ++ configSpecial) M2 (by simp [configSpecial]) hr draws'
  have R3 := Reach.step (.setIds (ids.map Int.ofNat ++ configSpecial) false draws') R2 e3
  rw [hmap] at e3 R3
  have hnd3 : (ids ++ [26, 24]).Nodup := (hperm.append_right [26, 24]).nodup_iff.2 (by decide)
  have H3 : L0Ready 6
      { S2 with siteIds := ids ++ [26, 24], modeCustom := true, doShuffle := false, maxIter := (ids.map Int.ofNat ++ configSpecial).length }
      (ids ++ [26, 24]) 11 := by
    refine ⟨rfl, by simp [configSpecial], H2.currentIdx.trans hlen, by simp; omega, fun k hk => ?_, fun s => ?_⟩
    · rcases List.mem_append.1 hk with h | h
      · exact hlt k h
      · clear hk; revert k; decide
    · have := H2.occ s
      rw [List.take_length] at this
      rw [← hlen, List.take_left]
      exact this
  obtain ⟨S4, S5, w, e4, e5, hw⟩ := C64_one_detection (L := 6) (v := .l0) (by omega) rfl hnd3 H3 R3 (by simp; omega)
    (fun h => config_before (h.mono fun s hs => by
      have h' : s ∈ ids ++ [26] := by
        have : (ids ++ [26, 24]).dropLast = ids ++ [26] := by
          rw [show ids ++ [26, 24] = (ids ++ [26]) ++ [24] by simp, List.dropLast_concat]
        rwa [this] at hs
      have : s ∈ configIds.map Int.toNat ++ [26] := (hperm.append_right [26]).mem_iff.1 h'
      exact this)) (fuel := fuel) (by simp; omega) (fun _ => ⟨0, 0⟩)
  have hw' : w = true := hw.2 (config_after.mono fun s hs => by
    have : s ∈ configIds.map Int.toNat ++ [26, 24] := hs
    exact (hperm.append_right [26, 24]).mem_iff.2 this)
  have hs2 : S2.siteIds = ids := H2.siteIds
  simp only [testConfig1, e, bind, Except.bind, e1, e2, hs2, e3, e4, e5, hw']
  rfl

/-! ### The tests of the shortest path class -/

/-- For `L ≤ 2` no wrapping cluster is ever recorded. -/
theorem Reach.wid_small (R : Reach env v L S) (hL : L ≤ 2) : S.wrappingId = -1 := by
  obtain ⟨_, A, M, hA⟩ := R.sim
  rw [M.wid]
  exact (hA.wrap.off (hA.wrap.flat hL).2).1

/-- C64: `test_large_lattice` passes for every lattice length and all random numbers. -/
theorem C64_large_lattice {isZero : α → Bool} (hz : isZero (env.ar.ofNat 0) = true)
    (hn : ∀ n m, 0 < n → n ≤ m → isZero (env.ar.div (env.ar.ofNat n) (env.ar.ofNat m)) = false) (h0 : 0 < L) {fuel : Nat}
    (hf : L * L < fuel) (draws : Nat → Nat) : testLargeLattice env isZero L fuel draws = .ok () := by
  obtain ⟨S, e, F⟩ := fresh_exists env .sp h0 draws
  by_cases hL : 3 ≤ L
  · obtain ⟨S', e', hs, _⟩ := C41_found hL F hf
    obtain ⟨hflag, hp, m, n, hm, hmn, hnl, _, _, hpn⟩ := C39_values F.trace e' hs
    obtain ⟨seq', b, R⟩ := spRunOnce_run F.trace e'
    obtain ⟨hc, hr⟩ := R.trace.scanAll
    have hz' : isZero S'.shortestP = false := by rw [hpn]; exact hn _ _ (by omega) hnl
    simp only [testLargeLattice, e, bind, Except.bind, e', testScans, hc, hr, hz']
    rw [hc, hr] at hflag
    have : ∀ x y : Bool, ((.ok x : Py Bool) = .ok true ∨ (.ok y : Py Bool) = .ok true) → pyAssert (y || x) = .ok () := by
      rintro x y (h | h)
      · rw [Except.ok.inj h, Bool.or_true]; rfl
      · rw [Except.ok.inj h, Bool.true_or]; rfl
    exact this _ _ hflag
  · obtain ⟨S', e', hs, hp, _⟩ := C41_small (by omega) F hf
    have R' : Reach env .sp L S' := .step (.runOnce fuel fun _ => ⟨0, 0⟩) F.defReach.reach e'
    have hw := R'.wid_small (by omega)
    have h1 : S'.scanAllRows = .ok false := by unfold Perc.scanAllRows; rw [if_pos (by rw [hw]; decide)]
    have h2 : S'.scanAllCols = .ok false := by unfold Perc.scanAllCols; rw [if_pos (by rw [hw]; decide)]
    simp only [testLargeLattice, e, bind, Except.bind, e', testScans, h1, h2, hp, hz]
    rfl

/-- The sites of `test_custome_lattice` do not wrap. -/
theorem custome_lattice_open : ¬ Wraps 6 (· ∈ [16, 17, 18, 19, 2, 6, 9]) := by
  obtain ⟨S, q, T, h⟩ := checkTrace_trace (env := demoEnv) (v := .sp) (L := 6) (ids := [16, 17, 18, 19, 2, 6, 9]) (n := 7)
    (p := fun S q => !S.afterWrapping && decide (q = [16, 17, 18, 19, 2, 6, 9])) (by decide +kernel)
  simp only [Bool.and_eq_true, decide_eq_true_eq, Bool.not_eq_true'] at h
  obtain ⟨h1, rfl⟩ := h
  intro hw
  have := T.aw_iff.2 ⟨by omega, hw⟩
  rw [h1] at this; cases this

/-- C64: `test_custome_lattice` passes, whatever the order in which the list is made from the set. -/
theorem C64_custome_lattice {isZero : α → Bool} (hz : isZero (env.ar.ofNat 0) = true) {ids : List Int}
    (hids : ids.Perm [16, 17, 18, 19, 2, 6, 9]) {fuel : Nat} (hf : 7 < fuel) (draws : Nat → Nat) :
    testCustomeLattice env isZero fuel draws ids = .ok () := by
  obtain ⟨S, e, F⟩ := fresh_exists env .sp (L := 6) (by omega) draws
  have hne : ids ≠ [] := by rintro rfl; have := hids.length_eq; simp at this
  have hr : ∀ i ∈ ids, 0 ≤ i ∧ i < ((6 : Nat) : Int) * (6 : Nat) := fun i hi => by
    have hi' := hids.mem_iff.1 hi
    clear hi; revert i; decide
  have hS : Start env .sp 6 S := .new e
  obtain ⟨S1, e1, H, T, _⟩ := hS.setIds hne hr draws
  have hp : (ids.map Int.toNat).Perm [16, 17, 18, 19, 2, 6, 9] := hids.map Int.toNat
  have hnd : (ids.map Int.toNat).Nodup := hp.nodup_iff.2 (by decide)
  have hl : (ids.map Int.toNat).length = 7 := hp.length_eq
  obtain ⟨S', n, e2, h1, h2, h3, h4⟩ := H.spRunOnce (fuel := fuel) hnd T (by omega)
  have hnw : ∀ m, ¬ HasWrapped 6 ((ids.map Int.toNat).take m) := fun m h =>
    custome_lattice_open (h.2.mono fun s hs => hp.mem_iff.1 (List.mem_of_mem_take hs))
  obtain ⟨hc, hrr⟩ := h2.scanAll
  have hcf : S'.scanAllCols = .ok false := by rw [hc]; simp [hnw n]
  have hrf : S'.scanAllRows = .ok false := by rw [hrr]; simp [hnw n]
  simp only [testCustomeLattice, e, bind, Except.bind, e1, e2, testScans, hcf, hrf]
  split <;> rfl

/-! ### The loops that stop at the wrapping -/

theorem testLargeLoop_run (fuel : Nat) : ∀ {S : Perc α} {seq : List Nat} (ds : Nat → Draw),
    DefReach env v L S → Trace env v L S seq → (seq ≠ [] → S.selected ≠ none) → ¬ HasWrapped L seq → S.budget L v < fuel →
    ∃ S' b seq', testLargeLoop env v fuel ds S = .ok (S', b) ∧ Trace env v L S' seq' ∧
      (3 ≤ L → b = true ∧ Wraps L (· ∈ seq') ∧ ¬ Wraps L (· ∈ seq'.dropLast)) ∧ (L ≤ 2 → b = false ∧ ∀ s < L * L, S'.Occ s) := by
  induction fuel with
  | zero => intro S seq ds D _ _ _ h; have := D.live.nonneg; simp at h; omega
  | succ fuel ih =>
    intro S seq ds D T hsel hnw h
    have H := D.live
    obtain ⟨S1, b, p1, H1, ht, hf⟩ := H.place (ds 0)
    have D1 : DefReach env v _ S1 := .step (.place (ds 0)) rfl D (by simp only [SqPerc.step]; rw [p1]; rfl)
    simp only [testLargeLoop]
    rw [p1]
    cases b with
    | false =>
      obtain ⟨T1, h1⟩ := T.placeLast H p1
      refine ⟨S1, false, seq, rfl, T1, fun hL => ?_, fun _ => ⟨rfl, h1⟩⟩
      exact absurd ⟨hL, full_wraps (by omega) fun s hs => (T1.reports.occ s).1 (h1 s hs)⟩ hnw
    | true =>
      obtain ⟨c1, c2⟩ := ht rfl
      obtain ⟨S2, w, seq2, hd, T2, hne, hs2, _, hseq⟩ := T.placeDetect hsel p1
      obtain ⟨_, hb2⟩ := H1.detect hd
      have D2 : DefReach env v _ S2 := .step .detect rfl D1 (by simp only [SqPerc.step]; rw [hd]; rfl)
      have hw : S2.afterWrapping = w := by
        obtain ⟨_, A, M, hA⟩ := D1.reach.sim
        rcases detectWrapping_sim M hA.inv hd with ⟨h1, rfl, rfl⟩ | ⟨h1, k, _, ⟨_, rfl, rfl⟩ | ⟨_, _, rfl, rfl⟩⟩
        · rw [M.aw]; exact h1
        · rw [M.aw]; exact h1
        · rfl
      show ∃ S' b seq', (S1.detectWrapping >>= _) = _ ∧ _
      rw [hd]
      cases w with
      | true =>
        have h2 := T2.aw_iff.1 hw
        refine ⟨S2, true, seq2, rfl, T2, fun hL => ⟨rfl, h2.2, ?_⟩, fun hL => absurd h2.1 (by omega)⟩
        rcases hseq with rfl | ⟨k, rfl⟩
        · exact absurd h2 hnw
        · rw [List.dropLast_concat]; exact fun h => hnw ⟨hL, h⟩
      | false =>
        refine ih (fun i => ds (i + 1)) D2 T2 (fun _ => hs2) (fun h0 => ?_) (show S2.budget L v < fuel by push_cast at h; omega)
        have := T2.aw_iff.2 h0
        rw [hw] at this; cases this

/-- C64: `test_large`: for every lattice length from 3 on the loop is left by `break`, right after the placement that makes the occupied
sites wrap; on shorter lattices it fills the lattice without finding a wrapping. -/
theorem C64_test_large (h0 : 0 < L) {fuel : Nat} (hf : initBudget L v < fuel) (draws : Nat → Nat) (ds : Nat → Draw) :
    ∃ S' b seq', testLarge env v L fuel draws ds = .ok (S', b) ∧ Trace env v L S' seq' ∧
      (3 ≤ L → b = true ∧ Wraps L (· ∈ seq') ∧ ¬ Wraps L (· ∈ seq'.dropLast)) ∧ (L ≤ 2 → b = false ∧ ∀ s < L * L, S'.Occ s) := by
  obtain ⟨S, e, F⟩ := fresh_exists env v h0 draws
  have hnw : ¬ HasWrapped L [] := fun h => by
    have := F.trace.aw_iff.2 h
    obtain ⟨_, A, M, hA, I⟩ := F.trace.sim
    obtain ⟨pre, k, post, h1, _⟩ := I.on (by rw [← M.aw]; exact this)
    simp at h1
  obtain ⟨S', b, seq', e', h'⟩ := testLargeLoop_run fuel ds F.defReach F.trace F.sel_inv hnw (by rw [F.live.2.1]; exact hf)
  exact ⟨S', b, seq', by simp only [testLarge, e, bind, Except.bind, e'], h'⟩

/-! ### The remaining tests -/

/-- C64: `test_simulation_L0_different_seeds` and its L1 and L2 versions pass, whatever `random.seed(None)` yields.  (The list of seeds holds ten
times `None`: no seed is ever chosen by the test.) -/
theorem C64_different_seeds {isOne : α → Bool} (hone : ∀ n, 0 < n → isOne (env.ar.div (env.ar.ofNat n) (env.ar.ofNat n)) = true) (hL : 3 ≤ L)
    {fuel : Nat} (hf : initBudget L v < fuel) (draws : Option Int → Nat → Nat → Nat) (ds : Option Int → Nat → Nat → Draw) :
    testDifferentSeeds env isOne v L fuel draws ds = .ok () := (forM_ok_iff _ _).2 fun _ _ => C64_seed hone hL hf _ _

/-- C64: `test_custome_lattices` passes, whatever the shuffles. -/
theorem C64_custome_lattices {fuel : Nat} (hf : 11 < fuel) (draws draws' : Nat → Nat → Nat) :
    testCustomeLattices env fuel draws draws' = .ok () := (forM_ok_iff _ _).2 fun _ _ => C64_config1 hf _ _

/-- C64: `test_single` and `test_multiple_seeds` pass for any seeds and any generator. -/
theorem C64_multiple_seeds {isZero : α → Bool} (hz : isZero (env.ar.ofNat 0) = true)
    (hn : ∀ n m, 0 < n → n ≤ m → isZero (env.ar.div (env.ar.ofNat n) (env.ar.ofNat m)) = false) {fuel : Nat} (hf : 36 < fuel)
    (seeds : List Int) (draws : Int → Nat → Nat) :
    testSingle env isZero fuel draws = .ok () ∧ testMultipleSeeds env isZero fuel seeds draws = .ok () :=
  ⟨C64_large_lattice hz hn (by omega) hf _, (forM_ok_iff _ _).2 fun _ _ => C64_large_lattice hz hn (by omega) hf _⟩

/-- C64: `test_neighbors` passes and `test_index` prints `L + 2` and `3 * L + 2`, for every length. -/
theorem C64_lattice (L : Nat) : testNeighbors L = .ok () ∧ testIndex L = .ok ((L : Int) + 2, 3 * (L : Int) + 2) := by
  obtain ⟨lat, e⟩ := C01_lattice_exists L
  have h := C01_scans_pass (.fresh e)
  have hl : lat.length = L := by
    have := Lattice.new_eq L
    rw [e] at this
    rw [Except.ok.inj this]; rfl
  constructor
  · simp only [testNeighbors, e, bind, Except.bind, h.1, h.2]
  · simp only [testIndex, e, bind, Except.bind, pure, Except.pure, Lattice.calculateIdFromIndex, hl]
    simp [List.range_succ]
    ring

example : testIndex 5 = .ok (7, 17) := (C64_lattice 5).2

/-! ### What the self checks detect -/

/-- C64: what the self checks detect.  On an arbitrary, possibly damaged lattice object `scan_sites` succeeds exactly when every stored
site has the id of its index, lists four bonds, and each listed bond exists and lists the site. -/
theorem C64_scan_sites (lat : Lattice) : lat.scanSites = .ok () ↔ ∀ ss ∈ lat.sites,
    (ss.id : Int) = ss.index.c1 * lat.length + ss.index.c2 ∧ ss.bonds.length = 4 ∧
      ∀ b ∈ ss.bonds, ∃ bb, lat.bonds[b]? = some bb ∧ ss.id ∈ bb.sites := by
  simp only [Lattice.scanSites, forM_ok_iff, Lattice.scanSite, bind_unit_ok_iff, pyAssert_ok_iff, decide_eq_true_iff]
  refine forall₂_congr fun ss _ => and_congr ?_ (and_congr Iff.rfl (forall₂_congr fun b _ => ?_))
  · simp [Lattice.calculateIdFromIndex, List.range_succ, mul_comm]
  · simp only [Lattice.getNeighborSites, Lattice.getBond, pyGet]
    cases lat.bonds[b]? with
    | none => simp [bind, Except.bind]
    | some bb => simp [bind, Except.bind, pure, Except.pure, pyAssert_ok_iff]

/-- C64: `scan_bonds` succeeds exactly when every stored bond has the id of its index, lists two sites, and each listed site exists and
lists the bond. -/
theorem C64_scan_bonds (lat : Lattice) : lat.scanBonds = .ok () ↔ ∀ bb ∈ lat.bonds,
    (bb.id : Int) = bb.type * lat.length ^ 2 + bb.row * lat.length + bb.col ∧ bb.sites.length = 2 ∧
      ∀ s ∈ bb.sites, ∃ ss, lat.sites[s]? = some ss ∧ bb.id ∈ ss.bonds := by
  simp only [Lattice.scanBonds, forM_ok_iff, Lattice.scanBond, bind_unit_ok_iff, pyAssert_ok_iff, decide_eq_true_iff]
  refine forall₂_congr fun bb _ => and_congr ?_ (and_congr Iff.rfl (forall₂_congr fun s _ => ?_))
  · simp [Lattice.calculateIdFromIndex, Bond.getIndex, List.range_succ, mul_comm, add_assoc]
  simp only [Lattice.getNeighborBonds, Lattice.getSite, pyGet]
  cases lat.sites[s]? with
  | none => simp [bind, Except.bind]
  | some ss => simp [bind, Except.bind, pure, Except.pure, pyAssert_ok_iff]

theorem eraseDups_length (l : List Nat) : l.eraseDups.length = l.toFinset.card := by
  have hn : l.eraseDups.Nodup := by
    induction h : l.length using Nat.strong_induction_on generalizing l with
    | _ n ih =>
      cases l with
      | nil => simp
      | cons a l =>
        rw [List.eraseDups_cons]
        refine List.nodup_cons.2 ⟨by simp [List.mem_eraseDups], ih _ ?_ _ rfl⟩
        have := List.length_filter_le (fun b => !b == a) l
        simp only [List.length_cons] at h
        omega
  rw [← List.toFinset_card_of_nodup hn]
  congr 1
  ext x
  simp [List.mem_eraseDups]

theorem toFinset_card_iff (l : List Nat) : l.toFinset.card = l.length ↔ l.Nodup := by
  rw [← Multiset.coe_nodup, ← Multiset.toFinset_card_eq_card_iff_nodup]; rfl

/-- C64: `test_neighbor_count` succeeds exactly when every site lists four different bonds and every bond lists two sites. -/
theorem C64_neighbor_count (lat : Lattice) : lat.testNeighborCount = .ok () ↔
    (∀ ss ∈ lat.sites, ss.bonds.toFinset.card = 4) ∧ ∀ bb ∈ lat.bonds, bb.sites.length = 2 := by
  simp only [Lattice.testNeighborCount, forM_ok_iff, bind_unit_ok_iff, pyAssert_ok_iff, decide_eq_true_iff, eraseDups_length]

/-- C64: the final check of a filled lattice succeeds exactly when every site lists four bonds, all different, every bond two sites, both
different, and every one of them carries the given label. -/
theorem C64_filled_check (lat : Lattice) (gid : Int) : lat.testLattice gid = .ok () ↔
    (∀ ss ∈ lat.sites, ss.bonds.length = 4 ∧ ss.bonds.Nodup ∧ ss.gid = gid) ∧
      ∀ bb ∈ lat.bonds, bb.sites.length = 2 ∧ bb.sites.Nodup ∧ bb.gid = gid := by
  simp only [Lattice.testLattice, Lattice.testLatticeSite, Lattice.testLatticeBond, forM_ok_iff, bind_unit_ok_iff, pyAssert_ok_iff,
    decide_eq_true_iff, eraseDups_length]
  refine and_congr (forall₂_congr fun ss _ => and_congr_right fun h => and_congr_left' ?_)
    (forall₂_congr fun bb _ => and_congr_right fun h => and_congr_left' ?_)
  · rw [← h]; exact toFinset_card_iff _
  · rw [← h]; exact toFinset_card_iff _

/-- One neighbour passes the check of `test_relative_index` against the central relative index. -/
def RelNear (lat : Lattice) (c r : Idx) : Prop := ((c.c2 - r.c2).natAbs : Int) = 1 ∨ ((c.c2 - r.c2).natAbs : Int) = (lat.length : Int) - 1 ∨
  ((c.c1 - r.c1).natAbs : Int) = 1 ∨ ((c.c1 - r.c1).natAbs : Int) = (lat.length : Int) - 1

theorem testRelLoop_spec (lat : Lattice) (c : Idx) : ∀ (ns : List Nat) (k : Nat), (∀ n ∈ ns, n < lat.sites.length) →
    ∃ r, lat.testRelLoop c ns k = .ok r ∧ (r.1 > 0 ↔ k > 0 ∨ ∃ n ∈ ns, ∃ x, lat.sites[n]? = some x ∧ 0 ≤ x.gid) ∧
      (r.2 = true ↔ ∃ n ∈ ns, ∃ x, lat.sites[n]? = some x ∧ 0 ≤ x.gid ∧ RelNear lat c x.rel) := by
  intro ns
  induction ns with
  | nil => intro k _; exact ⟨_, rfl, by simp, by simp⟩
  | cons n ns ih =>
    intro k hns
    have hn := hns n (by simp)
    have ih := fun k => ih k fun m hm => hns m (by simp [hm])
    have hg : lat.getSite n = .ok lat.sites[n] := by simp [Lattice.getSite, pyGet, hn]
    have hs : lat.sites[n]? = some lat.sites[n] := List.getElem?_eq_getElem hn
    rw [Lattice.testRelLoop, hg]
    by_cases h0 : lat.sites[n].gid < 0
    · obtain ⟨r, e, h1, h2⟩ := ih k
      refine ⟨r, by simpa [bind, Except.bind, h0] using e, h1.trans ?_, h2.trans ?_⟩
      · simp only [List.mem_cons, exists_eq_or_imp, hs, Option.some.injEq, exists_eq_left', not_le.2 h0, false_or]
      · simp only [List.mem_cons, exists_eq_or_imp, hs, Option.some.injEq, exists_eq_left', not_le.2 h0, false_and, false_or]
    · by_cases h3 : RelNear lat c lat.sites[n].rel
      · refine ⟨(k + 1, true), ?_, ?_, ?_⟩
        · simp only [bind, Except.bind, h0, if_false]
          rw [if_pos]; · rfl
          unfold RelNear at h3; tauto
        · simp only [List.mem_cons, exists_eq_or_imp, hs, Option.some.injEq, exists_eq_left', not_lt.1 h0, true_or, or_true, iff_true]
          omega
        · simp only [List.mem_cons, exists_eq_or_imp, hs, Option.some.injEq, exists_eq_left', not_lt.1 h0, h3, true_and, true_or]
      · obtain ⟨r, e, h1, h2⟩ := ih (k + 1)
        refine ⟨r, ?_, h1.trans ?_, h2.trans ?_⟩
        · simp only [bind, Except.bind, h0, if_false]
          rw [if_neg]; · exact e
          unfold RelNear at h3; tauto
        · simp only [List.mem_cons, exists_eq_or_imp, hs, Option.some.injEq, exists_eq_left', not_lt.1 h0, true_or, or_true, iff_true]
          exact .inl (Nat.succ_pos k)
        · simp only [List.mem_cons, exists_eq_or_imp, hs, Option.some.injEq, exists_eq_left', not_lt.1 h0, h3, true_and, false_or]

/-- C64: what `test_relative_index` detects.  Given the four neighbours `f s` of every occupied site, it succeeds exactly when every
occupied site with an occupied neighbour has an occupied neighbour whose relative index differs by 1 or `length - 1` in some coordinate. -/
theorem C64_relative_check (lat : Lattice) (f : Nat → List Nat)
    (hf : ∀ ss ∈ lat.sites, 0 ≤ ss.gid → lat.getAllNeighborSites ss.id = .ok (f ss.id) ∧ ∀ n ∈ f ss.id, n < lat.sites.length) :
    lat.testRelativeIndex = .ok () ↔ ∀ ss ∈ lat.sites, 0 ≤ ss.gid →
      (∃ n ∈ f ss.id, ∃ x, lat.sites[n]? = some x ∧ 0 ≤ x.gid) →
      ∃ n ∈ f ss.id, ∃ x, lat.sites[n]? = some x ∧ 0 ≤ x.gid ∧ RelNear lat ss.rel x.rel := by
  simp only [Lattice.testRelativeIndex, forM_ok_iff]
  refine forall₂_congr fun ss hss => ?_
  unfold Lattice.testRelSite
  by_cases h0 : ss.gid < 0
  · simp [h0]
  · obtain ⟨e, hl⟩ := hf ss hss (by omega)
    obtain ⟨r, er, h1, h2⟩ := testRelLoop_spec lat ss.rel (f ss.id) 0 hl
    have hp : 0 ≤ ss.gid := by omega
    simp only [h0, if_false, e, er, bind, Except.bind, hp, true_imp_iff]
    rw [← h2]
    simp only [lt_irrefl, gt_iff_lt, false_or] at h1
    rw [← h1]
    by_cases h : 0 < r.1
    · simp [h, pyAssert_ok_iff]
    · simp [h, pure, Except.pure]

/-! ### Concrete cases -/

/-- A lattice of length 3 with one bond entry overwritten is rejected by both scans, with one label overwritten by the final check. -/
example : (match Lattice.new 3 with
    | .ok lat =>
      let bad := { lat with bonds := lat.bonds.modify 0 fun b => { b with sites := [0, 4] } }
      !isOk bad.scanSites () && !isOk bad.scanBonds () && isOk lat.scanSites () && isOk (lat.testLattice (-1)) () && !isOk (lat.testLattice 0) ()
    | .error _ => false) = true := by decide +kernel

/-- In exact arithmetic the comparisons satisfy the hypotheses. -/
example : (∀ n, 0 < n → (fun x : ℝ => decide (x = 1)) ((n : ℝ) / n) = true) ∧ (fun x : ℝ => decide (x = 0)) ((0 : Nat) : ℝ) = true ∧
    ∀ n m : Nat, 0 < n → n ≤ m → (fun x : ℝ => decide (x = 0)) ((n : ℝ) / m) = false := by
  refine ⟨fun n hn => ?_, by simp, fun n m hn hm => ?_⟩
  · have : (n : ℝ) ≠ 0 := by positivity
    simp [this]
  · have h1 : (n : ℝ) ≠ 0 := by positivity
    have h2 : (m : ℝ) ≠ 0 := by have : 0 < m := by omega
                                positivity
    simp [h1, h2]

/-- The default parameters of the test: length 6, class L2. -/
example (draws : Nat → Nat) (ds : Nat → Draw) : testSimulationSeed demoEnv (fun _ => true) .l2 6 200 draws ds = .ok () :=
  C64_seed (fun _ _ => rfl) (by omega) (by decide) draws ds

/-- `test_multiple_seeds` and the parameters `(20, 363)`, for any seed. -/
example (so : SetOrder) (draws : Nat → Nat) (L : Nat) (hL : L = 6 ∨ L = 20) :
    testLargeLattice (realEnv so) (fun x : ℝ => decide (x = 0)) L 1000 draws = .ok () := by
  refine C64_large_lattice (by simp [realEnv, realArith]) ?_ (by omega) (by rcases hL with rfl | rfl <;> decide) draws
  intro n m hn hm
  have h1 : (n : ℝ) ≠ 0 := by positivity
  have h2 : (m : ℝ) ≠ 0 := by have : 0 < m := by omega
                              positivity
  simp [realEnv, realArith, h1, h2]

/-- The order of `test_custome_lattice` in CPython (small ints in ascending hash order). -/
example (draws : Nat → Nat) : testCustomeLattice demoEnv (fun _ => true) 10 draws [2, 6, 9, 16, 17, 18, 19] = .ok () :=
  C64_custome_lattice rfl (by decide) (by omega) draws

end SqPerc
