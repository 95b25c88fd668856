import Verif.Proof.Tally
import Verif.Props.Demos
/-
C80: the counters of the L1 and L2 classes after a complete run, and what `occupied_summary` prints then.
-/
namespace SqPerc

variable {α : Type} {env : Env α} {L : Nat} {S S' S1 : Perc α} {v : Variant} {d : Draw}

theorem runs_break (t : List Char) {c : Char} (hc : isNum c = false) (r : List Char) :
    ∀ cur, runs cur (t ++ c :: r) = runs cur (t ++ [c]) ++ runs [] r := by
  induction t with
  | nil =>
    intro cur
    simp only [List.nil_append, runs, hc, Bool.false_eq_true, if_false]
    split <;> simp
  | cons a t ih =>
    intro cur
    simp only [List.cons_append, runs]
    split
    · exact ih _
    · split
      · exact ih _
      · rw [ih]; rfl

/-- A text that ends with something that is no part of a number shows the numbers in it. -/
theorem Shows.closed (t : List Char) {c : Char} (hc : isNum c = false) : Shows (t ++ [c]) (SqPerc.numbers (t ++ [c])) := by
  intro r
  unfold SqPerc.numbers
  rw [List.append_assoc, List.singleton_append, runs_break t hc r, List.map_append]

theorem summaryLine_shows (n : Int) {t : List Char} {ns : List Int} (h : SqPerc.numbers (t ++ [' ']) = ns) :
    Shows (t ++ [' ', ' '] ++ intText n ++ "  times".toList ++ ['\n']) (ns ++ [n]) := by
  have h0 := (Shows.closed t (c := ' ') (by decide)).congr h
  have h1 : Shows [' '] [] := Shows.skip (by decide)
  have h2 : Shows (" times".toList ++ ['\n']) [] := Shows.skip (by decide)
  have h3 := ((h0.append h1).append (Shows.int n (c := ' ') (by decide))).append h2
  have e : t ++ [' ', ' '] ++ intText n ++ "  times".toList ++ ['\n'] = t ++ [' '] ++ [' '] ++ (intText n ++ [' ']) ++ (" times".toList ++ ['\n']) := by
    simp [show "  times".toList = ' ' :: " times".toList by decide]
  rw [e]
  simpa using h3

/-- The numbers in the summary of L1: the `1` of `L1`, the `1` of `1st` and the counter. -/
theorem summaryL1_numbers (S : Perc α) : numbers S.occupiedSummaryL1 = [1, 1, (S.xOccupied : Int)] := by
  have h := summaryLine_shows (S.xOccupied : Int) (t := "SitePercolationL1.occupied_summary\n  1st neighor selected".toList) (ns := [1, 1]) (by decide +kernel)
  have e : S.occupiedSummaryL1 = "SitePercolationL1.occupied_summary\n  1st neighor selected".toList ++ [' ', ' '] ++ intText S.xOccupied ++
      "  times".toList ++ ['\n'] := by
    unfold Perc.occupiedSummaryL1 println
    rw [show "SitePercolationL1.occupied_summary\n  1st neighor selected".toList =
      "SitePercolationL1.occupied_summary".toList ++ ['\n'] ++ "  1st neighor selected".toList by decide +kernel,
      show "  1st neighor selected  ".toList = "  1st neighor selected".toList ++ [' ', ' '] by decide +kernel]
    simp
  rw [e]; exact h.numbers

/-- The numbers in the summary of L2. -/
theorem summaryL2_numbers (S : Perc α) : numbers S.occupiedSummaryL2 = [2, 1, (S.xOccupied : Int), 2, (S.yOccupied : Int)] := by
  have h := summaryLine_shows (S.xOccupied : Int) (t := "SitePercolationL2.occupied_summary\n  1st neighor selected".toList) (ns := [2, 1]) (by decide +kernel)
  have h' := summaryLine_shows (S.yOccupied : Int) (t := "  2nd neighor selected".toList) (ns := [2]) (by decide +kernel)
  have e : S.occupiedSummaryL2 = ("SitePercolationL2.occupied_summary\n  1st neighor selected".toList ++ [' ', ' '] ++ intText S.xOccupied ++
      "  times".toList ++ ['\n']) ++ ("  2nd neighor selected".toList ++ [' ', ' '] ++ intText S.yOccupied ++ "  times".toList ++ ['\n']) := by
    unfold Perc.occupiedSummaryL2 println
    rw [show "SitePercolationL2.occupied_summary\n  1st neighor selected".toList =
      "SitePercolationL2.occupied_summary".toList ++ ['\n'] ++ "  1st neighor selected".toList by decide +kernel,
      show "  1st neighor selected  ".toList = "  1st neighor selected".toList ++ [' ', ' '] by decide +kernel,
      show "  2nd neighor selected  ".toList = "  2nd neighor selected".toList ++ [' ', ' '] by decide +kernel]
    simp
  rw [e]; exact (h.append h').numbers

theorem Tally.done (T : Tally v L S) (h0 : 0 < L) (hb : S.budget L v = 0) (hc : S.occupiedCount = L * L) :
    4 * (L * L) ≤ S.xOccupied ∧ S.xOccupied < 5 * (L * L) ∧ (v = .l2 → S.yOccupied = 4 * (L * L)) := by
  have hLL : 0 < L * L := Nat.mul_pos h0 h0
  unfold Tally at T
  rw [hb] at T
  rcases T with ⟨t1, _⟩ | ⟨t1, t2, t3⟩
  · omega
  · exact ⟨by omega, by omega, fun h => by have := t3 h; omega⟩

theorem DefReach.done (D : DefReach env v L S) (hv : v.plain = false) (hb : S.budget L v = 0) (hf : ∀ s < L * L, S.Occ s) :
    4 * (L * L) ≤ S.xOccupied ∧ S.xOccupied < 5 * (L * L) ∧ (v = .l2 → S.yOccupied = 4 * (L * L)) :=
  (D.tally hv).done D.reach.sim.1 hb (by rw [C11_counter D.reach]; exact occCount_full.2 hf)

/-- C80: in the default mode, as soon as `place_one_site()` of L1 or L2 returns False, `x_occupied` is at least `4 L²` and less than `5 L²`,
and `y_occupied` of L2 is exactly `4 L²`, whatever was drawn. -/
theorem C80_complete (D : DefReach env v L S) (hv : v.plain = false) (hp : S.placeOneSite env v d = .ok (S', false)) :
    4 * (L * L) ≤ S'.xOccupied ∧ S'.xOccupied < 5 * (L * L) ∧ (v = .l2 → S'.yOccupied = 4 * (L * L)) := by
  obtain ⟨S1, b, p1, _, _, hf⟩ := D.live.place d
  rw [hp] at p1
  obtain ⟨rfl, rfl⟩ := Prod.mk.inj (Except.ok.inj p1)
  obtain ⟨A, M, hA⟩ := D.live.sim
  refine (D.placeTo hp).done hv (hf rfl).2.1 fun s hs => ?_
  rcases placeOneSite_occ M hA.inv hp with h | h
  · exact absurd h.2.1 (by simp)
  · exact (h.2.1 s).2 ((hf rfl).2.2 s hs)

/-- C80: the same after every `run_once()`. -/
theorem C80_run_once (D : DefReach env v L S) (hv : v.plain = false) {fuel : Nat} (ds : Nat → Draw) (h : step env v S (.runOnce fuel ds) = .ok S') :
    4 * (L * L) ≤ S'.xOccupied ∧ S'.xOccupied < 5 * (L * L) ∧ (v = .l2 → S'.yOccupied = 4 * (L * L)) := by
  have D' : DefReach env v L S' := .step (.runOnce fuel ds) rfl D h
  replace h : S.runOnceV env v fuel ds = .ok S' := h
  have h : S.runOnce env v fuel ds = .ok S' := by
    cases v with
    | sp => cases hv
    | l0 => exact h
    | l1 => exact h
    | l2 => exact h
  simp only [Perc.runOnce] at h
  cases hr : Perc.runLoop env v fuel ds S with
  | error e => rw [hr] at h; cases h
  | ok S1 =>
    rw [hr] at h
    obtain rfl := Except.ok.inj h
    have hb := D.live.runLoop_budget fuel hr
    have H1 := runLoop_ind (Live env v L) (fun q h => q.place_ok h) (fun q h => (q.detect h).1) (fun q h => (q.record h).1) fuel D.live hr
    have hb' := (H1.data false S1.occProbList S1.entropyList S1.orderWrapList S1.orderLargestList S1.shortestP).2.trans hb
    refine D'.done hv hb' fun s hs => ?_
    obtain ⟨S2, b, p2, _, ht, hf⟩ := D'.live.place ⟨0, 0⟩
    cases b with
    | true => have := (ht rfl).1; rw [hb'] at this; omega
    | false => exact (hf rfl).2.2 s hs

theorem occCount_none {occ : Nat → Prop} (h : ∀ s, ¬ occ s) : occCount L occ = 0 := by
  classical
  unfold occCount
  rw [Finset.card_eq_zero, Finset.filter_eq_empty_iff]
  exact fun s _ => h s

/-- The state at the end of the loops of `test_L1` and `test_L2`. -/
theorem demoLoop_done {body : Body α} (hv : v.plain = false) (F : Fresh env v L S)
    (hb : ∀ T d T1, DefReach env v L T → T.placeOneSite env v d = .ok (T1, true) → (T.occupiedCount ≠ 0 → T.selected ≠ none) →
      ∃ T2 out, body T1 = .ok (T2, out, false) ∧ DefReach env v L T2 ∧ T2.budget L v = T1.budget L v ∧ T2.selected = T1.selected ∧
        T2.occupiedCount = T1.occupiedCount)
    {fuel : Nat} (hf : 5 * (L * L) < fuel) (ds : Nat → Draw) :
    ∃ S' out, demoLoop env v body fuel ds S = .ok (S', out) ∧ 4 * (L * L) ≤ S'.xOccupied ∧ S'.xOccupied < 5 * (L * L) ∧
      (v = .l2 → S'.yOccupied = 4 * (L * L)) := by
  obtain ⟨S', outs, e', ⟨D', hlen', _⟩, hfull, hlen⟩ := demoLoop_rule (env := env) (v := v) (L := L) (body := body)
    (P := fun outs T => DefReach env v L T ∧ T.budget L v + outs.length = initBudget L v ∧ (T.occupiedCount ≠ 0 → T.selected ≠ none))
    (fun outs T h => h.1.live)
    (fun outs T T1 d ⟨D, hl, hs⟩ hp => by
      obtain ⟨T2, out, e2, D2, b2, s2, c2⟩ := hb T d T1 D hp hs
      refine ⟨T2, out, e2, ⟨D2, ?_, ?_⟩, b2⟩
      · obtain ⟨U, b, hU, _, ht, _⟩ := D.live.place d
        rw [hp] at hU
        obtain ⟨rfl, rfl⟩ := Prod.mk.inj (Except.ok.inj hU)
        have := (ht rfl).2
        rw [b2, List.length_append, List.length_singleton]
        push_cast
        omega
      · obtain ⟨A, M, hA⟩ := D.live.sim
        rw [s2, c2]
        obtain ⟨S0, flag, hsel, _, hfl, K⟩ := placeOneSite_select M hA.inv hp
        rcases placeOneSite_occ M hA.inv hp with ⟨_, _, k, hk, _⟩ | ⟨hne, _, hc, _⟩
        · intro _; rw [hk]; simp
        · rw [hc]
          intro h0
          have := hs h0
          cases v with
          | l0 => cases hv
          | sp => cases hv
          | l1 =>
            rcases l1_rule M hA.inv hp with ⟨_, _, _, c, _⟩ | ⟨_, x, _, _, ⟨_, a, _⟩ | ⟨_, _, a, _⟩ | ⟨_, _, _, c, _⟩⟩
            · rw [c]; exact this
            · exact absurd a hne
            · exact absurd a hne
            · rw [c]; exact this
          | l2 =>
            rcases l2_rule M hA.inv hp with ⟨_, _, _, c, _⟩ | ⟨_, x, _, _, ⟨_, a, _⟩ | ⟨_, _, a, _⟩ | ⟨_, _, _, a, _⟩ | ⟨_, _, _, _, c, _⟩⟩
            · rw [c]; exact this
            · exact absurd a hne
            · exact absurd a hne
            · exact absurd a hne
            · rw [c]; exact this)
    (fun outs T T1 d ⟨D, hl, hs⟩ hp => by
      obtain ⟨U, b, hU, _, _, hfl⟩ := D.live.place d
      rw [hp] at hU
      obtain ⟨rfl, rfl⟩ := Prod.mk.inj (Except.ok.inj hU)
      refine ⟨D.placeTo hp, ?_, ?_⟩
      · rw [(hfl rfl).2.1]; rw [(hfl rfl).1] at hl; exact hl
      · obtain ⟨A, M, hA⟩ := D.live.sim
        rcases placeOneSite_occ M hA.inv hp with ⟨_, h, _⟩ | ⟨hne, _, hc, _⟩
        · cases h
        · rw [hc]
          intro h0
          have hsel : T1.selected = T.selected := by
            cases v with
            | l0 => cases hv
            | sp => cases hv
            | l1 =>
              rcases l1_rule M hA.inv hp with ⟨_, _, _, c, _⟩ | ⟨_, x, _, _, ⟨_, a, _⟩ | ⟨_, _, a, _⟩ | ⟨_, _, a, c, _⟩⟩
              · exact c
              · exact absurd a hne
              · exact absurd a hne
              · exact c
            | l2 =>
              rcases l2_rule M hA.inv hp with ⟨_, _, _, c, _⟩ | ⟨_, x, _, _, ⟨_, a, _⟩ | ⟨_, _, a, _⟩ | ⟨_, _, _, a, _⟩ | ⟨_, _, _, a, c, _⟩⟩
              · exact c
              · exact absurd a hne
              · exact absurd a hne
              · exact absurd a hne
              · exact c
          rw [hsel]; exact hs h0)
    fuel (outs0 := []) ds ⟨F.defReach, by rw [F.live.2.1]; simp, fun h => by
      rw [C11_counter F.reach] at h
      exact absurd (occCount_none F.live.2.2.2) h⟩
    (by rw [F.live.2.1]; exact initBudget_lt hf v)
  rw [F.live.2.1] at hlen
  rw [List.nil_append] at hlen'
  exact ⟨S', _, e', D'.done hv (by omega) hfull⟩

/-- C80: what `test_L1` prints as summary: a number of at least `4 L²` and less than `5 L²`. -/
theorem C80_test_L1 (h0 : 0 < L) {fuel : Nat} (hf : 5 * (L * L) < fuel) (draws : Nat → Nat) (ds : Nat → Draw) :
    ∃ (S' : Perc α) (out : List (Printed α)) (t : Text) (n : Nat), demoL1 env L fuel draws ds = .ok (S', out) ∧ .text t ∈ out ∧
      (∃ r, t = "SitePercolationL1.occupied_summary".toList ++ r) ∧ numbers t = [1, 1, (n : Int)] ∧ 4 * (L * L) ≤ n ∧ n < 5 * (L * L) := by
  obtain ⟨S, e, F⟩ := fresh_exists env .l1 h0 draws
  obtain ⟨S', out, e', h1, h2, _⟩ := demoLoop_done (v := .l1) (body := Body.detectView) rfl F (fun T d T1 D hp hs => by
    have D1 := D.placeTo hp
    have hs1 : T1.selected ≠ none := by
      obtain ⟨A, M, hA⟩ := D.live.sim
      rcases l1_rule M hA.inv hp with ⟨_, _, c, _⟩ | ⟨_, x, _, _, ⟨_, _, c, _⟩ | ⟨_, _, _, c, _⟩ | ⟨o, _, _, c, _⟩⟩
      · cases c
      · rw [c]; simp
      · rw [c]; simp
      · rw [c]; exact hs fun h => D.live.none_occ h x o
    obtain ⟨A1, M1, hA1⟩ := D1.live.sim
    obtain ⟨T2, w, hd⟩ := detectWrapping_ok M1 hA1.inv hs1
    have D2 := D1.detectTo hd
    obtain ⟨t, ht⟩ := D2.reach.viewLattice_total 3
    obtain ⟨K, _, hc⟩ := detectWrapping_keep M1 hA1.inv hd
    exact ⟨T2, [.text t], by simp only [Body.detectView, hd, bind, Except.bind, ht]; rfl, D2, (D1.live.detect hd).2, K.selected, hc⟩) hf ds
  refine ⟨S', _, S'.occupiedSummaryL1, S'.xOccupied, by simp only [demoL1, e, bind, Except.bind, e']; rfl, by simp, ?_, summaryL1_numbers S', h1, h2⟩
  exact ⟨_, by rw [Perc.occupiedSummaryL1, println, List.append_assoc]⟩

/-- C80: what `test_L2` prints as summary: first a number of at least `4 L²` and less than `5 L²`, then exactly `4 L²`. -/
theorem C80_test_L2 (h0 : 0 < L) {fuel : Nat} (hf : 5 * (L * L) < fuel) (draws : Nat → Nat) (ds : Nat → Draw) :
    ∃ (S' : Perc α) (out : List (Printed α)) (t : Text) (n : Nat), demoL2 env L fuel draws ds = .ok (S', out) ∧ .text t ∈ out ∧
      (∃ r, t = "SitePercolationL2.occupied_summary".toList ++ r) ∧ numbers t = [2, 1, (n : Int), 2, ((4 * (L * L) : Nat) : Int)] ∧
      4 * (L * L) ≤ n ∧ n < 5 * (L * L) := by
  obtain ⟨S, e, F⟩ := fresh_exists env .l2 h0 draws
  obtain ⟨S', out, e', h1, h2, h3⟩ := demoLoop_done (v := .l2) (body := Body.view) rfl F (fun T d T1 D hp hs => by
    have D1 := D.placeTo hp
    obtain ⟨t, ht⟩ := D1.reach.viewLattice_total 3
    exact ⟨T1, [.text t], by simp only [Body.view, ht, bind, Except.bind]; rfl, D1, rfl, rfl, rfl⟩) hf ds
  obtain ⟨S'', _, t1, e2, _, _, R', _, _, _, ht1, _⟩ := C75_L2 (env := env) h0 hf draws ds
  have e3 : demoL2 env L fuel draws ds = (S'.viewLattice 1).bind fun t => .ok (S', out ++ [.text S'.occupiedSummaryL2, .text t, .text S'.viewCluster]) := by
    simp only [demoL2, e, bind, Except.bind, e']; rfl
  rw [e3] at e2
  cases hv : S'.viewLattice 1 with
  | error x => rw [hv] at e2; cases e2
  | ok t =>
    rw [hv] at e3
    refine ⟨S', _, S'.occupiedSummaryL2, S'.xOccupied, e3, by simp, ?_, ?_, h1, h2⟩
    · exact ⟨_, by rw [Perc.occupiedSummaryL2, println, List.append_assoc, List.append_assoc]⟩
    · rw [← h3 rfl]; exact summaryL2_numbers S'

/-! ### Concrete cases -/

/-- Both bounds for `x_occupied` are met, here for `L = 2`: all sites placed directly, or all but the first one as a neighbour. -/
example : (∃ S : Perc Unit, DefReach demoEnv .l1 2 S ∧ S.xOccupied = 4 * (2 * 2)) ∧ (∃ S : Perc Unit, DefReach demoEnv .l1 2 S ∧ S.xOccupied = 5 * (2 * 2) - 1) ∧
    (∃ S : Perc Unit, DefReach demoEnv .l2 2 S ∧ S.xOccupied = 5 * (2 * 2) - 1 ∧ S.yOccupied = 4 * (2 * 2)) := by
  refine ⟨?_, ?_, ?_⟩
  · obtain ⟨S, h, hp⟩ := checkOps_def (env := demoEnv) (v := .l1) (L := 2) (ops := [.reset (fun _ => 0), .runOnce 21 fun i => ⟨i, 0⟩])
      (p := fun S => decide (S.xOccupied = 16)) (by decide) (by decide +kernel)
    exact ⟨S, h, by simpa using hp⟩
  · obtain ⟨S, h, hp⟩ := checkOps_def (env := demoEnv) (v := .l1) (L := 2)
      (ops := [.reset (fun _ => 0), .runOnce 21 fun i => if i = 2 then ⟨0, 1⟩ else if i = 3 then ⟨1, 1⟩ else ⟨0, 0⟩])
      (p := fun S => decide (S.xOccupied = 19)) (by decide) (by decide +kernel)
    exact ⟨S, h, by simpa using hp⟩
  · obtain ⟨S, h, hp⟩ := checkOps_def (env := demoEnv) (v := .l2) (L := 2)
      (ops := [.reset (fun _ => 0), .runOnce 21 fun i => if i = 2 then ⟨0, 1⟩ else if i = 3 then ⟨1, 1⟩ else ⟨0, 0⟩])
      (p := fun S => decide (S.xOccupied = 19 ∧ S.yOccupied = 16)) (by decide) (by decide +kernel)
    exact ⟨S, h, by simpa using hp⟩

end SqPerc
