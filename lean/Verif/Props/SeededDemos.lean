import Verif.Model.DemosSeeded
import Verif.Props.Demos
import Verif.Props.SeededGrowth
/-
C113, continued: `test_L1` and `test_detect_wrapping_L1L2` with a generator.
-/
namespace SqPerc

variable {α σ : Type} {env : Env α} {v : Variant} {L : Nat} {S : Perc α} {g : Growth}

/-- A call of the process adds at most one site, which is new. -/
theorem Growth.step_placed (L : Nat) (deep : Bool) (g : Growth) (a : Nat) (dir : Dir) : (g.step L deep a dir).placed = g.placed ∨
    ∃ k, k ∉ g.placed ∧ (g.step L deep a dir).placed = g.placed ++ [k] := by
  unfold Growth.step
  split
  · exact .inl rfl
  · split
    next x k hk =>
      refine .inr ⟨k, ?_, rfl⟩
      unfold Growth.target at hk
      split at hk
      · rename_i h; rw [← Option.some.inj hk]; exact h
      · split at hk
        · rename_i h; rw [← Option.some.inj hk]; exact h
        · split at hk
          · rename_i h; rw [← Option.some.inj hk]; exact h.2
          · cases hk
    next => exact .inl rfl

/-- One round: placement, then `detect_wrapping`. -/
theorem Follows.round (f : Follows L v S g) (D : DefReach env v L S) (hv : v = .l1 ∨ v = .l2) (T : Trace env v L S g.placed)
    (hsel : g.placed ≠ [] → S.selected ≠ none) {d : Draw} {S1 : Perc α} (hp : S.placeOneSite env v d = .ok (S1, true)) :
    ∃ S2 w, S1.detectWrapping = .ok (S2, w) ∧ Follows L v S2 (g.step L v.deep d.a (dirOf d.b)) ∧
      Trace env v L S2 (g.step L v.deep d.a (dirOf d.b)).placed ∧ S2.selected ≠ none := by
  obtain ⟨f1, _⟩ := f.next D.live hv d
  rw [nextState_eq hp] at f1
  obtain ⟨S2, w, q2, hd, T2, _, hs2, _, hgrow⟩ := T.placeDetect hsel hp
  have f2 := f1.detect (D.placeTo hp).live hd
  have hm : ∀ s, s ∈ q2 ↔ s ∈ (g.step L v.deep d.a (dirOf d.b)).placed := fun s => (T2.reports.occ s).symm.trans (f2.occ s)
  have hq : q2 = (g.step L v.deep d.a (dirOf d.b)).placed := by
    obtain ⟨hnd, _⟩ := T2.seq_nodup_lt
    rcases Growth.step_placed L v.deep g d.a (dirOf d.b) with e | ⟨k, hk, e⟩
    · rw [e] at hm ⊢
      rcases hgrow with rfl | ⟨k, rfl⟩
      · rfl
      · have h1 : k ∈ g.placed := (hm k).1 (by simp)
        rw [List.nodup_append] at hnd
        exact absurd rfl (hnd.2.2 k h1 k (by simp))
    · rw [e] at hm ⊢
      rcases hgrow with rfl | ⟨k', rfl⟩
      · exact absurd ((hm k).2 (by simp)) hk
      · have h1 : k ∈ g.placed ∨ k = k' := by have := (hm k).2 (by simp); simpa using this
        rw [h1.resolve_left hk]
  rw [← hq]
  exact ⟨S2, w, hd, f2, T2, hs2⟩

/-- The placement order after `n` calls of the process. -/
def Growth.after (G : Rng σ) (L : Nat) (deep : Bool) (g : Growth) (s : σ) (n : Nat) : List Nat := ((Growth.asked L deep n g).run G s).1.placed

/-- Loop rule for bodies that detect once per round. -/
theorem demoLoopG_rule (G : Rng σ) (hv : v = .l1 ∨ v = .l2) {body : Body α} {line : List Nat → List Nat → List (Printed α) → Prop}
    (hb : ∀ {T T1 T2 : Perc α} {q q2 : List Nat} {d : Draw} {w : Bool}, DefReach env v L T → Trace env v L T q →
      T.placeOneSite env v d = .ok (T1, true) → T1.detectWrapping = .ok (T2, w) → Trace env v L T2 q2 →
      ∃ out, body T1 = .ok (T2, out, false) ∧ line q q2 out) (fuel : Nat) :
    ∀ {S : Perc α} {g : Growth} {n : Nat} (s : σ), DefReach env v L S → Follows L v S g → Trace env v L S g.placed →
    (g.placed ≠ [] → S.selected ≠ none) → S.budget L v = n → n < fuel →
    ∃ (S' : Perc α) (outs : List (List (Printed α))), demoLoopG G env v body fuel S s = .ok (S', outs.flatten, ((Growth.asked L v.deep n g).run G s).2) ∧
      outs.length = n ∧ Trace env v L S' (g.after G L v.deep s n) ∧ DefReach env v L S' ∧ (∀ s < L * L, S'.Occ s) ∧
      ∀ j out, outs[j]? = some out → line (g.after G L v.deep s j) (g.after G L v.deep s (j + 1)) out := by
  induction fuel with
  | zero => intro S g n s _ _ _ _ _ h; omega
  | succ fuel ih =>
    intro S g n s D f T hsel hn hfu
    obtain ⟨S1, b, hp, H1, ht, hf⟩ := D.live.place (g.draw.run G s).1
    have e0 : S.drawG G v s = g.draw.run G s := by rw [← drawA_run G hv, f.drawA D.live]
    simp only [demoLoopG, e0, hp, bind, Except.bind]
    cases b with
    | false =>
      obtain ⟨h0, _, _⟩ := hf rfl
      obtain rfl : n = 0 := by omega
      obtain ⟨T1, hfull⟩ := T.placeLast D.live hp
      have hc : g.cand = [] := by rw [← f.pool]; exact D.live.pool_nil hv h0
      refine ⟨S1, [], ?_, rfl, T1, D.placeTo hp, hfull, fun j out h => by simp at h⟩
      rw [Growth.draw_nil hc]; rfl
    | true =>
      obtain ⟨h0, h1⟩ := ht rfl
      obtain ⟨m, rfl⟩ : ∃ m, n = m + 1 := ⟨n - 1, by omega⟩
      obtain ⟨S2, w, hd, f2, T2, hs2⟩ := f.round D hv T hsel hp
      obtain ⟨out, ho, hl⟩ := hb D T hp hd T2
      have hb2 := (H1.detect hd).2
      obtain ⟨S', outs, e, a1, a2, a3, a4, a5⟩ := ih (n := m) (g.draw.run G s).2 ((D.placeTo hp).detectTo hd) f2 T2 (fun _ => hs2)
        (by rw [hb2]; push_cast at hn; omega) (by omega)
      have step : ∀ j, g.after G L v.deep s (j + 1) =
          (g.step L v.deep (g.draw.run G s).1.a (dirOf (g.draw.run G s).1.b)).after G L v.deep (g.draw.run G s).2 j := by
        intro j; rw [Growth.after, Growth.asked, Ask.run_bind]; rfl
      refine ⟨S', out :: outs, ?_, by rw [List.length_cons, a1], by rw [step]; exact a2, a3, a4, ?_⟩
      · simp only [if_true, ho, e, Bool.false_eq_true, if_false, Growth.asked, Ask.run_bind]
        rfl
      · intro j o hj
        cases j with
        | zero =>
          obtain rfl : out = o := by simpa using hj
          rw [step]; exact hl
        | succ j =>
          rw [step, step]
          exact a5 j o (by simpa using hj)

/-- The process of a new object that keeps its shuffled candidates: the numbers of the shuffle are asked for first. -/
def growthNew (L : Nat) (deep : Bool) (n : Nat) : Ask (List Nat) :=
  (Ask.all (countdown (L * L))).bind fun as =>
    (Growth.asked L deep n (Growth.start (pyShuffle (choices (L * L) as) (List.range (L * L))))).bind fun g => .ret g.placed

theorem growthNew_run (G : Rng σ) (deep : Bool) (n : Nat) (s : σ) : (growthNew L deep n).run G s =
    ((Growth.start (pyShuffle (choices (L * L) (G.answers (countdown (L * L)) s).1) (List.range (L * L)))).after G L deep
      (G.answers (countdown (L * L)) s).2 n,
     ((Growth.asked L deep n (Growth.start (pyShuffle (choices (L * L) (G.answers (countdown (L * L)) s).1) (List.range (L * L))))).run G
      (G.answers (countdown (L * L)) s).2).2) := by
  rw [growthNew, Ask.run_bind, Ask.run_all, Ask.run_bind]
  rfl

/-- A new object of L1 followed by the loop. -/
theorem demoNewG (G : Rng σ) {body : Body α} {line : List Nat → List Nat → List (Printed α) → Prop}
    (hb : ∀ {T T1 T2 : Perc α} {q q2 : List Nat} {d : Draw} {w : Bool}, DefReach env .l1 L T → Trace env .l1 L T q →
      T.placeOneSite env .l1 d = .ok (T1, true) → T1.detectWrapping = .ok (T2, w) → Trace env .l1 L T2 q2 →
      ∃ out, body T1 = .ok (T2, out, false) ∧ line q q2 out)
    (hL : 0 < L) {fuel : Nat} (hf : 5 * (L * L) < fuel) (seed : Int) (s : σ) :
    ∃ (S S' : Perc α) (s1 : σ) (outs : List (List (Printed α))), Perc.newG G env L (some seed) s = .ok (S, s1) ∧
      demoLoopG G env .l1 body fuel S s1 = .ok (S', outs.flatten, ((growthNew L false (5 * (L * L))).run G (G.seed seed)).2) ∧
      outs.length = 5 * (L * L) ∧ Trace env .l1 L S' ((growthNew L false (5 * (L * L))).run G (G.seed seed)).1 ∧ DefReach env .l1 L S' ∧
      (∀ s < L * L, S'.Occ s) ∧ ∀ j out, outs[j]? = some out →
        line ((growthNew L false j).run G (G.seed seed)).1 ((growthNew L false (j + 1)).run G (G.seed seed)).1 out := by
  obtain ⟨S, e, e'⟩ := new_choices (G := G) (env := env) hL (some seed) s
  have F : Fresh env .l1 L S := .new e'
  have hids : S.siteIds = pyShuffle (choices (L * L) (G.answers (countdown (L * L)) (G.seed seed)).1) (List.range (L * L)) := by
    obtain ⟨rev, e1, _⟩ := new_ok env hL (choices (L * L) (G.answers (countdown (L * L)) (G.seeded (some seed) s)).1)
    rw [e1] at e'
    rw [← Except.ok.inj e']; rfl
  have f := F.follows
  rw [hids] at f
  obtain ⟨S', outs, a1, a2, a3, a4, a5, a6⟩ := demoLoopG_rule G (.inl rfl) hb fuel (n := 5 * (L * L)) (G.answers (countdown (L * L)) (G.seed seed)).2
    F.defReach f F.trace (fun h => absurd rfl h) (by rw [F.live.2.1]; simp only [initBudget]; push_cast; rfl) hf
  refine ⟨S, S', _, outs, e, ?_, a2, ?_, a4, a5, ?_⟩
  · rw [growthNew_run]; exact a1
  · rw [growthNew_run]; exact a3
  · intro j out h
    rw [growthNew_run, growthNew_run]; exact a6 j out h

/-- C113: `test_L1` with a generator, which is seeded first.  The tables are printed after each of `5 L²` calls, the table of call `j + 1` when the sites
placed by the first `j + 1` calls of the process are occupied; `tc` is the moment at which the placement order of the process first wraps. -/
theorem C113_test_L1 (G : Rng σ) (hL : 0 < L) {fuel : Nat} (hf : 5 * (L * L) < fuel) (seed : Int) (s : σ) :
    let q := fun n => ((growthNew L false n).run G (G.seed seed)).1
    ∃ (S' : Perc α) (tables : List Text),
    demoL1G G env L fuel seed s = .ok (S', tables.map .text ++
      [.values ["tc = "] [S'.getPc env], .text S'.occupiedSummaryL1, .text S'.viewCluster],
      ((growthNew L false (5 * (L * L))).run G (G.seed seed)).2) ∧
    tables.length = 5 * (L * L) ∧ (q (5 * (L * L))).Perm (List.range (L * L)) ∧
    (∀ j t, tables[j]? = some t → ∃ T : Perc α, Reach env .l1 L T ∧ (∀ s, T.Occ s ↔ s ∈ q (j + 1)) ∧ T.viewLattice 3 = .ok t) ∧
    Trace env .l1 L S' (q (5 * (L * L))) ∧
    (3 ≤ L → ∃ pre k, firstWrap L [] (q (5 * (L * L))) = some (pre, k) ∧ S'.getPc env = prob env L (pre ++ [k])) := by
  intro q
  obtain ⟨S, S', s1, outs, e, e', hl, T', D', hfull, hq⟩ := demoNewG G (env := env) (body := Body.detectView)
    (line := fun _ q2 out => ∃ t, out = [.text t] ∧ ∃ T : Perc α, Reach env .l1 L T ∧ (∀ s, T.Occ s ↔ s ∈ q2) ∧ T.viewLattice 3 = .ok t)
    (fun {T T1 T2 q q2 d w} D _ hp hd Tr2 => by
      have D2 := (D.placeTo hp).detectTo hd
      obtain ⟨t, ht⟩ := D2.reach.viewLattice_total 3
      exact ⟨[.text t], by simp only [Body.detectView, hd, bind, Except.bind, ht]; rfl, t, rfl, T2, D2.reach, Tr2.reports.occ, ht⟩)
    hL hf seed s
  obtain ⟨tables, ht⟩ : ∃ tables : List Text, outs = tables.map fun t => [.text t] := by
    refine ⟨outs.map fun o => match o with | [.text t] => t | _ => [], ?_⟩
    rw [List.map_map]
    refine (List.map_id' outs).symm.trans (List.map_congr_left fun o ho => ?_)
    obtain ⟨j, hj⟩ := List.mem_iff_getElem?.1 ho
    obtain ⟨t, rfl, _⟩ := hq j o hj
    rfl
  have hflat : outs.flatten = tables.map .text := by rw [ht]; exact flatten_single _ _
  have T'' : Trace env .l1 L S' (q (5 * (L * L))) := T'
  obtain ⟨hnd, hlt⟩ := T''.seq_nodup_lt
  have hall : ∀ s < L * L, s ∈ q (5 * (L * L)) := fun s hs => (T''.reports.occ s).1 (hfull s hs)
  refine ⟨S', tables, ?_, by rw [← hl, ht, List.length_map], ?_, ?_, T'', ?_⟩
  · rw [hflat] at e'
    simp only [demoL1G, e, bind, Except.bind, e']; rfl
  · rw [List.perm_ext_iff_of_nodup hnd List.nodup_range]
    intro s
    rw [List.mem_range]
    exact ⟨hlt s, hall s⟩
  · intro j t hj
    obtain ⟨t', h1, h2⟩ := hq j [.text t] (by rw [ht, List.getElem?_map, hj]; rfl)
    obtain rfl : t = t' := by simpa using h1
    exact h2
  · intro hL
    have hw : Wraps L (· ∈ q (5 * (L * L))) := full_wraps (by omega) hall
    cases hfw : firstWrap L [] (q (5 * (L * L))) with
    | none =>
      have h1 := (T''.reports.before hL hfw).1
      have := T''.aw_iff.2 ⟨hL, hw⟩
      rw [h1] at this; cases this
    | some p =>
      refine ⟨p.1, p.2, rfl, ?_⟩
      rw [(T''.reports.after hL p.1 p.2 hfw).2.1, prob, List.length_append]; rfl

/-- C113: `test_detect_wrapping_L1L2` with a generator, which is seeded first: line `j + 1` is that of the sites placed by the first `j + 1` calls of the
process. -/
theorem C113_detect_L1 (G : Rng σ) (hL : 0 < L) {fuel : Nat} (hf : 5 * (L * L) < fuel) (seed : Int) (s : σ) :
    let q := fun n => ((growthNew L false n).run G (G.seed seed)).1
    ∃ (S' : Perc α) (outs : List (Printed α)),
    demoDetectL1G G env L fuel seed s = .ok (S', outs, ((growthNew L false (5 * (L * L))).run G (G.seed seed)).2) ∧
    outs.length = 5 * (L * L) ∧ (∀ j o, outs[j]? = some o → L1Line env L (q j) (q (j + 1)) o) ∧ Trace env .l1 L S' (q (5 * (L * L))) := by
  intro q
  obtain ⟨S, S', s1, outs, e, e', hl, T', D', hfull, hq⟩ := demoNewG G (env := env) (body := Body.lineThenDetect env)
    (line := fun q q2 out => ∃ o, out = [o] ∧ L1Line env L q q2 o) (fun D Tr hp hd Tr2 => lineThenDetect_line D Tr hp hd Tr2) hL hf seed s
  obtain ⟨os, ho⟩ : ∃ os : List (Printed α), outs = os.map fun o => [o] := by
    refine ⟨outs.map fun o => o.headD (.text []), ?_⟩
    rw [List.map_map]
    refine (List.map_id' outs).symm.trans (List.map_congr_left fun o ho => ?_)
    obtain ⟨j, hj⟩ := List.mem_iff_getElem?.1 ho
    obtain ⟨t, rfl, _⟩ := hq j o hj
    rfl
  have hflat : outs.flatten = os := by rw [ho]; exact (flatten_single id os).trans (List.map_id os)
  refine ⟨S', os, ?_, by rw [← hl, ho, List.length_map], ?_, T'⟩
  · rw [hflat] at e'
    simp only [demoDetectL1G, e, bind, Except.bind, e']
  · intro j t hj
    obtain ⟨t', h1, h2⟩ := hq j [t] (by rw [ho, List.getElem?_map, hj]; rfl)
    obtain rfl : t = t' := by simpa using h1
    exact h2

/-! ### Without detection -/

/-- Loop rule for the body that only prints a table. -/
theorem demoLoopG_view (G : Rng σ) (hv : v = .l1 ∨ v = .l2) (fuel : Nat) :
    ∀ {S : Perc α} {g : Growth} {n : Nat} (s : σ), DefReach env v L S → S.afterWrapping = false → Follows L v S g → S.budget L v = n → n < fuel →
    ∃ (S' : Perc α) (tables : List Text),
      demoLoopG G env v Body.view fuel S s = .ok (S', tables.map .text, ((Growth.asked L v.deep n g).run G s).2) ∧
      tables.length = n ∧ DefReach env v L S' ∧ S'.afterWrapping = false ∧ (∀ s < L * L, S'.Occ s) ∧ (∀ x, S'.Occ x ↔ x ∈ g.after G L v.deep s n) ∧
      ∀ j t, tables[j]? = some t → ∃ T : Perc α, Reach env v L T ∧ (∀ x, T.Occ x ↔ x ∈ g.after G L v.deep s (j + 1)) ∧ T.viewLattice 3 = .ok t := by
  induction fuel with
  | zero => intro S g n s _ _ _ _ h; omega
  | succ fuel ih =>
    intro S g n s D haw f hn hfu
    obtain ⟨S1, b, hp, H1, ht, hf⟩ := D.live.place (g.draw.run G s).1
    have e0 : S.drawG G v s = g.draw.run G s := by rw [← drawA_run G hv, f.drawA D.live]
    have f1 := (f.next D.live hv (g.draw.run G s).1).1
    rw [nextState_eq hp] at f1
    have D1 := D.placeTo hp
    have haw1 := D.awOff haw hp
    simp only [demoLoopG, e0, hp, bind, Except.bind]
    cases b with
    | false =>
      obtain ⟨h0, _, hocc⟩ := hf rfl
      obtain rfl : n = 0 := by omega
      have hc : g.cand = [] := by rw [← f.pool]; exact D.live.pool_nil hv h0
      have hst : g.step L v.deep (g.draw.run G s).1.a (dirOf (g.draw.run G s).1.b) = g := by unfold Growth.step; rw [hc]; rfl
      have ho1 : ∀ x, S1.Occ x ↔ x ∈ g.placed := fun x => by
        have := f1.occ x
        rwa [show (g.step L v.deep (g.draw.run G s).1.pick.1 (g.draw.run G s).1.pick.2) = g from hst] at this
      refine ⟨S1, [], ?_, rfl, D1, haw1, fun x hx => (ho1 x).2 ((f.occ x).1 (hocc x hx)), ho1, fun j out h => by simp at h⟩
      rw [Growth.draw_nil hc]; rfl
    | true =>
      obtain ⟨h0, h1⟩ := ht rfl
      obtain ⟨m, rfl⟩ : ∃ m, n = m + 1 := ⟨n - 1, by omega⟩
      obtain ⟨t, htt⟩ := D1.reach.viewLattice_total 3
      obtain ⟨S', tables, e, a1, a2, a3, a4, a5, a6⟩ := ih (n := m) (g.draw.run G s).2 D1 haw1 f1 (by push_cast at hn; omega) (by omega)
      have step : ∀ j, g.after G L v.deep s (j + 1) =
          (g.step L v.deep (g.draw.run G s).1.a (dirOf (g.draw.run G s).1.b)).after G L v.deep (g.draw.run G s).2 j := by
        intro j; rw [Growth.after, Growth.asked, Ask.run_bind]; rfl
      refine ⟨S', t :: tables, ?_, by rw [List.length_cons, a1], a2, a3, a4, by rw [step]; exact a5, ?_⟩
      · simp only [if_true, Body.view, htt, e, Bool.false_eq_true, if_false, Growth.asked, Ask.run_bind, bind, Except.bind, pure, Except.pure]
        rfl
      · intro j o hj
        cases j with
        | zero =>
          obtain rfl : t = o := by simpa using hj
          exact ⟨S1, D1.reach, fun x => by rw [step]; exact f1.occ x, htt⟩
        | succ j =>
          rw [step]
          exact a6 j o (by simpa using hj)

/-- C113: `test_L2` with a generator, which is seeded first: the table of call `j + 1` is printed when the sites placed by the first `j + 1` calls of the
process are occupied. -/
theorem C113_test_L2 (G : Rng σ) (hL : 0 < L) {fuel : Nat} (hf : 5 * (L * L) < fuel) (seed : Int) (s : σ) :
    let q := fun n => ((growthNew L true n).run G (G.seed seed)).1
    ∃ (S' : Perc α) (tables : List Text) (t1 : Text),
    demoL2G G env L fuel seed s = .ok (S', tables.map .text ++ [.text S'.occupiedSummaryL2, .text t1, .text S'.viewCluster],
      ((growthNew L true (5 * (L * L))).run G (G.seed seed)).2) ∧
    tables.length = 5 * (L * L) ∧
    (∀ j t, tables[j]? = some t → ∃ T : Perc α, Reach env .l2 L T ∧ (∀ s, T.Occ s ↔ s ∈ q (j + 1)) ∧ T.viewLattice 3 = .ok t) ∧
    (∀ s < L * L, s ∈ q (5 * (L * L))) ∧ S'.viewLattice 1 = .ok t1 ∧ S'.getPc env = env.ar.ofNat 0 := by
  intro q
  obtain ⟨S, e, e'⟩ := new_choices (G := G) (env := env) hL (some seed) s
  have F : Fresh env .l2 L S := .new e'
  obtain ⟨rev, e1, _⟩ := new_ok env hL (choices (L * L) (G.answers (countdown (L * L)) (G.seeded (some seed) s)).1)
  have hS := Except.ok.inj (e'.symm.trans e1)
  have hids : S.siteIds = pyShuffle (choices (L * L) (G.answers (countdown (L * L)) (G.seed seed)).1) (List.range (L * L)) := by rw [hS]; rfl
  have haw : S.afterWrapping = false := by rw [hS]; rfl
  have f := F.follows
  rw [hids] at f
  obtain ⟨S', tables, a1, a2, a3, a4, a5, a6, a7⟩ := demoLoopG_view G (.inr rfl) fuel (n := 5 * (L * L)) (G.answers (countdown (L * L)) (G.seed seed)).2
    F.defReach haw f (by rw [F.live.2.1]; simp only [initBudget]; push_cast; rfl) hf
  obtain ⟨t1, ht1⟩ := a3.reach.viewLattice_total 1
  refine ⟨S', tables, t1, ?_, a2, ?_, ?_, ht1, by rw [Perc.getPc, a4]; rfl⟩
  · have e2 : Perc.newG G env L (some seed) s = .ok (S, (G.answers (countdown (L * L)) (G.seed seed)).2) := e
    rw [growthNew_run]
    simp only [demoL2G, e2, bind, Except.bind]
    rw [a1]
    simp only [ht1]
    rfl
  · intro j t hj
    show ∃ T : Perc α, Reach env .l2 L T ∧ (∀ s, T.Occ s ↔ s ∈ ((growthNew L true (j + 1)).run G (G.seed seed)).1) ∧ _
    rw [growthNew_run]; exact a7 j t hj
  · intro x hx
    show x ∈ ((growthNew L true (5 * (L * L))).run G (G.seed seed)).1
    rw [growthNew_run]; exact (a6 x).1 (a5 x hx)

end SqPerc
