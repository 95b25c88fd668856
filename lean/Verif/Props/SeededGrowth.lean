import Verif.Props.WordGrowth
import Verif.Props.EndToEnd
/-
C113: runs of L1 and L2 with a generator.  The growth process of `Spec/Growth`, asking a generator for its numbers, is written down without the
object of the program; the program asks for the same numbers in the same order and places the same sites.
-/
namespace SqPerc

variable {α σ : Type} {env : Env α} {so : SetOrder} {v : Variant} {L : Nat} {S : Perc α} {g : Growth}

/-! ### The process with a generator -/

/-- The numbers asked for in one call: which candidate, and, if it is placed already, which of the four directions; nothing if there are no candidates
left. -/
def Growth.draw (g : Growth) : Ask Draw :=
  if g.cand.length = 0 then .ret ⟨0, 0⟩
  else .ask g.cand.length fun a =>
    if g.cand.getD (a % g.cand.length) 0 ∈ g.placed then .ask 4 fun b => .ret ⟨a, b⟩ else .ret ⟨a, 0⟩

/-- `n` calls. -/
def Growth.asked (L : Nat) (deep : Bool) : Nat → Growth → Ask Growth
  | 0, g => .ret g
  | n + 1, g => g.draw.bind fun d => Growth.asked L deep n (g.step L deep d.a (dirOf d.b))

/-- The placement order of a realisation: the numbers of a shuffle are asked for, but the candidates are then the sites in ascending order. -/
def growthOne (L : Nat) (deep : Bool) : Ask (List Nat) :=
  (Ask.all (countdown (L * L))).bind fun _ => (Growth.asked L deep (5 * (L * L)) (Growth.start (List.range (L * L)))).bind fun g => .ret g.placed

/-- The placement orders of `n` realisations. -/
def growthMany (L : Nat) (deep : Bool) : Nat → Ask (List (List Nat))
  | 0 => .ret []
  | n + 1 => (growthOne L deep).bind fun q => (growthMany L deep n).bind fun qs => .ret (q :: qs)

/-- The placement orders of `n` realisations of a new object: its construction asks for the numbers of a shuffle. -/
def growthOrders (L : Nat) (deep : Bool) (n : Nat) : Ask (List (List Nat)) :=
  (Ask.all (countdown (L * L))).bind fun _ => growthMany L deep n

/-! ### The object -/

/-- The numbers a generator gives in the calls. -/
def Growth.stream (G : Rng σ) (L : Nat) (deep : Bool) : Growth → σ → Nat → Draw
  | g, s, 0 => (g.draw.run G s).1
  | g, s, i + 1 => Growth.stream G L deep (g.step L deep (g.draw.run G s).1.a (dirOf (g.draw.run G s).1.b)) (g.draw.run G s).2 i

theorem Growth.asked_run (G : Rng σ) (deep : Bool) (n : Nat) : ∀ (g : Growth) (s : σ),
    ((Growth.asked L deep n g).run G s).1 = Growth.run L deep (fun i => (Growth.stream G L deep g s i).pick) n g := by
  induction n with
  | zero => intro g s; rfl
  | succ n ih =>
    intro g s
    rw [Growth.asked, Ask.run_bind, ih]
    rfl

theorem Growth.draw_nil (h : g.cand = []) : g.draw = .ret ⟨0, 0⟩ := by rw [Growth.draw, h]; rfl

theorem Growth.asked_nil (G : Rng σ) (deep : Bool) (n : Nat) (s : σ) (h : g.cand = []) : (Growth.asked L deep n g).run G s = (g, s) := by
  induction n with
  | zero => rfl
  | succ n ih =>
    have : g.step L deep 0 (dirOf 0) = g := by unfold Growth.step; rw [h]; rfl
    rw [Growth.asked, Growth.draw_nil h]
    show (Growth.asked L deep n (g.step L deep 0 (dirOf 0))).run G s = _
    rw [this, ih]

theorem Follows.drawA (f : Follows L v S g) (H : Live env v L S) : S.drawA = g.draw := by
  obtain ⟨A, Ms, hA⟩ := H.sim
  have hcount : S.lat.siteCount = L * L := by rw [Ms.lat, mkLat_siteCount]
  have hlen := H.len
  have hw : S.siteIds.length - S.currentIdx = g.cand.length := by rw [← f.pool, Perc.pool', List.length_drop]
  by_cases hc : L * L ≤ S.currentIdx
  · rw [Perc.drawA, if_pos (.inl (by rw [hcount]; exact hc)), Growth.draw, if_pos (by omega)]
  · rw [Perc.drawA, if_neg (by rw [hcount]; omega), Growth.draw, if_neg (by omega), hw]
    congr 1
    funext a
    have hr : a % g.cand.length < g.cand.length := Nat.mod_lt a (by omega)
    have hr' : S.currentIdx + a % g.cand.length < S.siteIds.length := by omega
    obtain ⟨x, hx⟩ : ∃ x, x = S.siteIds[S.currentIdx + a % g.cand.length]'hr' := ⟨_, rfl⟩
    have hget : S.siteIds[S.currentIdx + a % g.cand.length]? = some x := by rw [List.getElem?_eq_getElem hr', hx]
    have hxl : x < L * L := H.lt x (by rw [hx]; exact List.getElem_mem _)
    have e0 : g.cand.getD (a % g.cand.length) 0 = x := by
      rw [List.getD_eq_getElem?_getD]
      conv_lhs => rw [← f.pool]
      rw [Perc.pool', List.getElem?_drop, ← Perc.pool', f.pool, hget]; rfl
    have e1 : pyGet S.siteIds (S.currentIdx + a % g.cand.length) = .ok x := by simp only [pyGet, hget]
    have e2 : S.lat.getSite x = .ok (mkSite L A.V x) := by rw [Ms.lat]; exact getSite_mk hxl
    have e3 : S.lat.getAllNeighborSites x = .ok (Dir.all.map (nbr L x)) := by rw [Ms.lat]; exact getAllNeighborSites_mk hxl
    have ho : x ∈ g.placed ↔ (mkSite L A.V x).isOccupied = true := by
      rw [← f.occ]
      constructor
      · rintro ⟨st, h1, h2⟩
        rw [e2] at h1
        rw [Except.ok.inj h1]; exact h2
      · intro h; exact ⟨_, e2, h⟩
    rw [e0]
    cases hb : (mkSite L A.V x).isOccupied with
    | true =>
      have : S.secondRange (S.currentIdx + a % g.cand.length) = some 4 := by
        simp only [Perc.secondRange, e1, e2, e3, hb, bind, Except.bind, pure, Except.pure]
        rfl
      rw [if_pos (ho.2 hb), this]
    | false =>
      have : S.secondRange (S.currentIdx + a % g.cand.length) = none := by
        simp only [Perc.secondRange, e1, e2, hb, bind, Except.bind, pure, Except.pure]
        rfl
      rw [if_neg (fun h => by rw [ho.1 h] at hb; cases hb), this]

theorem Follows.detect (f : Follows L v S g) (H : Live env v L S) {S' : Perc α} {w : Bool} (hd : S.detectWrapping = .ok (S', w)) : Follows L v S' g := by
  obtain ⟨A, M, hA⟩ := H.sim
  obtain ⟨K, ho, _⟩ := detectWrapping_keep M hA.inv hd
  exact f.keep K ho

theorem Follows.record (f : Follows L v S g) {S' : Perc α} (hr : S.record env = .ok S') : Follows L v S' g := by
  obtain ⟨p, _, rfl⟩ := record_ok hr
  exact ⟨f.occ, f.pool, fun s hs => by rw [← f.cnt s hs]; cases v <;> rfl⟩

theorem Follows.turn (f : Follows L v S g) (H : Live env v L S) (hv : v = .l1 ∨ v = .l2) (d : Draw) {R : Perc α}
    (h : SqPerc.turn env (S.placeOneSite env v d) = .ok (R, true)) : Follows L v R (g.step L v.deep d.a (dirOf d.b)) := by
  obtain ⟨S1, more, hp, H1, _⟩ := H.place d
  have f1 := (f.next H hv d).1
  rw [nextState_eq hp] at f1
  rw [hp] at h
  cases more with
  | false => cases h
  | true =>
    simp only [SqPerc.turn, if_true, bind, Except.bind] at h
    by_cases hf : S1.selectionFlag = some .success
    · simp only [if_pos hf] at h
      cases hd : S1.detectWrapping with
      | error x => rw [hd] at h; cases h
      | ok q =>
        rw [hd] at h
        simp only at h
        cases hr : q.1.record env with
        | error x => rw [hr] at h; cases h
        | ok U =>
          rw [hr] at h
          obtain rfl : U = R := by injection h with h; injection h
          exact (f1.detect H1 (w := q.2) hd).record hr
    · simp only [if_neg hf] at h
      obtain rfl : S1 = R := by injection h with h; injection h
      exact f1

/-- The loop of `run_once` takes the numbers of the process from the generator. -/
theorem Follows.loop (G : Rng σ) (hv : v = .l1 ∨ v = .l2) (fuel : Nat) : ∀ {S : Perc α} {g : Growth} (n : Nat) (s : σ), Live env v L S → Follows L v S g →
    S.budget L v ≤ n →
    Perc.runLoopG G env v fuel S s = (fun R => (R, ((Growth.asked L v.deep n g).run G s).2)) <$>
      Perc.runLoop env v fuel (Growth.stream G L v.deep g s) S := by
  induction fuel with
  | zero => intro S g n s _ _ _; rfl
  | succ fuel ih =>
    intro S g n s H f hn
    rw [runLoopG_turn, runLoop_turn, ← drawA_run G hv, f.drawA H]
    show _ = (fun R => (R, ((Growth.asked L v.deep n g).run G s).2)) <$>
      (show Py (Perc α) from match SqPerc.turn env (S.placeOneSite env v (g.draw.run G s).1) with
      | .error e => .error e
      | .ok (S, true) => Perc.runLoop env v fuel (Growth.stream G L v.deep (g.step L v.deep (g.draw.run G s).1.a (dirOf (g.draw.run G s).1.b))
          (g.draw.run G s).2) S
      | .ok (S, false) => .ok S)
    rcases H.turn (g.draw.run G s).1 with ⟨e, he⟩ | ⟨R, he, H', h1, h2⟩ | ⟨R, _, he, _, hb⟩
    · rw [he]; rfl
    · rw [he]
      cases n with
      | zero => omega
      | succ n =>
        simp only
        rw [ih n _ H' (f.turn H hv _ he) (by push_cast at hn; omega), Growth.asked, Ask.run_bind]
    · rw [he]
      have hc : g.cand = [] := by rw [← f.pool]; exact H.pool_nil hv hb
      rw [Growth.asked_nil G v.deep n s hc, Growth.draw_nil hc]
      rfl

/-- The draws of a realisation. -/
def growthRun (G : Rng σ) (L : Nat) (deep : Bool) (fuel : Nat) (s : σ) : RunDraws :=
  ⟨choices (L * L) (G.answers (countdown (L * L)) s).1,
    Growth.stream G L deep (Growth.start (List.range (L * L))) (G.answers (countdown (L * L)) s).2, fuel⟩

/-- The draws of `n` realisations. -/
def growthRuns (G : Rng σ) (L : Nat) (deep : Bool) (fuel : Nat) : Nat → σ → List RunDraws
  | 0, _ => []
  | n + 1, s => growthRun G L deep fuel s :: growthRuns G L deep fuel n ((growthOne L deep).run G s).2

theorem growthRuns_length (G : Rng σ) (deep : Bool) (fuel n : Nat) (s : σ) : (growthRuns G L deep fuel n s).length = n := by
  induction n generalizing s with
  | zero => rfl
  | succ n ih => rw [growthRuns, List.length_cons, ih]

theorem growthRuns_fuel (G : Rng σ) (deep : Bool) (fuel n : Nat) (s : σ) : ∀ r ∈ growthRuns G L deep fuel n s, r.fuel = fuel := by
  induction n generalizing s with
  | zero => intro r hr; cases hr
  | succ n ih =>
    intro r hr
    rcases List.mem_cons.1 hr with rfl | hr
    · rfl
    · exact ih _ r hr

theorem growthOne_run (G : Rng σ) (deep : Bool) (s : σ) : (growthOne L deep).run G s =
    ((Growth.asked L deep (5 * (L * L)) (Growth.start (List.range (L * L)))).run G (G.answers (countdown (L * L)) s).2).map (·.placed) id := by
  rw [growthOne, Ask.run_bind, Ask.run_all, Ask.run_bind]
  rfl

theorem growthRuns_orders (G : Rng σ) (deep : Bool) (fuel n : Nat) (s : σ) :
    ((growthRuns G L deep fuel n s).map fun r => growthOrder L deep (List.range (L * L)) (5 * (L * L)) fun i => (r.steps i).pick) =
      ((growthMany L deep n).run G s).1 := by
  induction n generalizing s with
  | zero => rfl
  | succ n ih =>
    rw [growthRuns, List.map_cons, ih, growthMany, Ask.run_bind, Ask.run_bind]
    show _ = ((growthOne L deep).run G s).1 :: _
    congr 1
    rw [growthOne_run, growthOrder]
    show _ = ((Growth.asked L deep (5 * (L * L)) (Growth.start (List.range (L * L)))).run G (G.answers (countdown (L * L)) s).2).1.placed
    rw [Growth.asked_run]
    rfl

theorem realisationG_growth (G : Rng σ) (hv : v = .l1 ∨ v = .l2) (h : DefReach env v L S) (fuel : Nat) (s : σ) :
    realisationG G env v fuel S s = (fun R => (R, ((growthOne L v.deep).run G s).2)) <$> realisation env v S (growthRun G L v.deep fuel s) := by
  obtain ⟨R, e1, e2, e3⟩ := C72_reset_default (G := G) h s
  rw [if_pos hv] at e3
  have F : Fresh env v L R := .reset h e2
  obtain ⟨H, hb, _⟩ := F.live
  have f := F.follows
  rw [e3] at f
  have hI : initBudget L v = 5 * (L * L) := by rcases hv with rfl | rfl <;> rfl
  have key := f.loop G hv fuel (5 * (L * L)) (G.answers (countdown (L * L)) s).2 H (by rw [hb, hI]; push_cast; exact le_rfl)
  simp only [realisationG, e1, bind, Except.bind, realisation, growthRun, e2, runOnceV_loop hv]
  have : R.runOnceG G env v fuel (G.answers (countdown (L * L)) s).2 =
      (fun p : Perc α × σ => ({ p.1 with firstRun := false }, p.2)) <$> Perc.runLoopG G env v fuel R (G.answers (countdown (L * L)) s).2 := by
    rcases hv with rfl | rfl <;>
    · simp only [Perc.runOnceG]
      cases Perc.runLoopG G env _ fuel R (G.answers (countdown (L * L)) s).2 <;> rfl
  rw [this, key, growthOne_run]
  cases Perc.runLoop env v fuel (Growth.stream G L v.deep (Growth.start (List.range (L * L))) (G.answers (countdown (L * L)) s).2) R <;> rfl

theorem ensembleLoopG_growth (G : Rng σ) (hv : v = .l1 ∨ v = .l2) (pl : Bool) (fuel n : Nat) :
    ∀ {S : Perc α} (_ : DefReach env v L S) (s : σ) (data : Option (List (List α))) (crit : List (CritRow α)),
    ensembleLoopG G env v pl fuel n S s data crit = ensembleLoop env v pl (growthRuns G L v.deep fuel n s) S data crit := by
  induction n with
  | zero => intro S _ g data crit; rfl
  | succ n ih =>
    intro S h s data crit
    simp only [ensembleLoopG, growthRuns, ensembleLoop, realisationG_growth G hv h fuel]
    cases hr : realisation env v S (growthRun G L v.deep fuel s) with
    | error x => rfl
    | ok R =>
      simp only [Functor.map, Except.map, bind, Except.bind]
      cases R.getDataArray with
      | error x => rfl
      | ok aaa =>
        have next := ih (h.after_realisation hr) ((growthOne L v.deep).run G s).2
        cases pl with
        | false =>
          cases data with
          | none => exact next _ _
          | some d =>
            simp only [Bool.false_eq_true, if_false]
            cases addArrays env d aaa with
            | error x => rfl
            | ok d' => exact next _ _
        | true =>
          simp only [if_true]
          cases pyGetI aaa (-1) with
          | error x => rfl
          | ok y =>
            cases data with
            | none => exact next _ _
            | some d =>
              simp only
              cases addArrays env d aaa with
              | error x => rfl
              | ok d' => exact next _ _

/-! ### The theorems -/

/-- C113: a realisation of L1 or L2 (`reset(); run_once()`) places the sites in the order of the process, and leaves the generator in the state in which
the process leaves it: it asks for exactly the numbers of the process. -/
theorem C113_realisation (G : Rng σ) (hv : v = .l1 ∨ v = .l2) (h : DefReach env v L S) {fuel : Nat} (hf : 5 * (L * L) < fuel) (s : σ) :
    ∃ S', realisationG G env v fuel S s = .ok (S', ((growthOne L v.deep).run G s).2) ∧ Trace env v L S' ((growthOne L v.deep).run G s).1 ∧
      ((growthOne L v.deep).run G s).1.Perm (List.range (L * L)) := by
  obtain ⟨S1, S2, e1, e2, T, hp⟩ := C92_realisation h hv (growthRun G L v.deep fuel s).shuffle hf (growthRun G L v.deep fuel s).steps
  have e2' : S1.runOnceV env v fuel (growthRun G L v.deep fuel s).steps = .ok S2 := by rcases hv with rfl | rfl <;> exact e2
  have hq : growthOrder L v.deep (List.range (L * L)) (5 * (L * L)) (fun i => ((growthRun G L v.deep fuel s).steps i).pick) =
      ((growthOne L v.deep).run G s).1 := by
    rw [growthOne_run, growthOrder]
    show _ = ((Growth.asked L v.deep (5 * (L * L)) (Growth.start (List.range (L * L)))).run G (G.answers (countdown (L * L)) s).2).1.placed
    rw [Growth.asked_run]
    rfl
  rw [hq] at T hp
  refine ⟨S2, ?_, T, hp⟩
  rw [realisationG_growth G hv h fuel s]
  simp only [realisation, e1, bind, Except.bind]
  show _ <$> S1.runOnceV env v fuel (growthRun G L v.deep fuel s).steps = _
  rw [e2']
  rfl

/-- The run of an ensemble of L1 or L2 in terms of the process. -/
theorem runEnsembleG_growth (G : Rng σ) (env : Env α) (hv : v = .l1 ∨ v = .l2) (hL : 0 < L) (pl : Bool) (fuel n : Nat) (seed : Option Int) (s : σ) :
    runEnsembleG G env v pl fuel L n seed s = runEnsemble env v pl L (choices (L * L) (G.answers (countdown (L * L)) (G.seeded seed s)).1)
      (growthRuns G L v.deep fuel n (G.answers (countdown (L * L)) (G.seeded seed s)).2) := by
  obtain ⟨S, e, e'⟩ := newForRun_choices (G := G) (env := env) hL seed s
  simp only [runEnsembleG, runEnsemble, e, e', bind, Except.bind]
  rw [ensembleLoopG_growth G hv pl fuel n (.new e'), growthRuns_length]
  rfl

theorem growthOrders_run (G : Rng σ) (deep : Bool) (n : Nat) (s : σ) :
    ((growthOrders L deep n).run G s).1 = ((growthMany L deep n).run G (G.answers (countdown (L * L)) s).2).1 := by
  rw [growthOrders, Ask.run_bind, Ask.run_all]

/-- C113: an ensemble of L1 or L2 with a generator, in exact arithmetic: the tables are the means and the critical values of the placement orders of the
process that gets its numbers from the generator, which is seeded first if a seed is given. -/
theorem C113_ensemble (G : Rng σ) (hv : v = .l1 ∨ v = .l2) (hL : 0 < L) (pl : Bool) {fuel n : Nat} (hf : 5 * (L * L) < fuel) (hn : 0 < n)
    (seed : Option Int) (s : σ) :
    let qs := ((growthOrders L v.deep n).run G (match seed with | some k => G.seed k | none => s)).1
    qs.length = n ∧ (∀ q ∈ qs, q.Perm (List.range (L * L))) ∧
    ∃ table crit, runEnsembleG G (realEnv so) v pl fuel L n seed s = .ok (table, crit) ∧ table.length = L * L ∧
      (∀ k < L * L, table[k]? = some [((k + 1 : Nat) : ℝ) / (L * L : Nat), meanOver qs (fun q => shannon L (· ∈ q.take (k + 1))),
        meanOver qs (fun q => (seqLargest L (q.take (k + 1)) : ℝ) / (2 * (L * L) : Nat)),
        meanOver qs (fun q => (seqWrapping L (q.take (k + 1)) : ℝ) / (2 * (L * L) : Nat))]) ∧
      List.Forall₂ (CritOf L) qs crit := by
  intro qs
  have hg : (match seed with | some k => G.seed k | none => s) = G.seeded seed s := by cases seed <;> rfl
  have hq : qs = ((growthRuns G L v.deep fuel n (G.answers (countdown (L * L)) (G.seeded seed s)).2).map fun r =>
      growthOrder L v.deep (List.range (L * L)) (5 * (L * L)) fun i => (r.steps i).pick) := by
    rw [growthRuns_orders, ← growthOrders_run, ← hg]
  have hne : growthRuns G L v.deep fuel n (G.answers (countdown (L * L)) (G.seeded seed s)).2 ≠ [] := by
    intro h
    have := growthRuns_length (L := L) G v.deep fuel n (G.answers (countdown (L * L)) (G.seeded seed s)).2
    rw [h] at this
    cases this
    cases hn
  have hfu : ∀ r ∈ growthRuns G L v.deep fuel n (G.answers (countdown (L * L)) (G.seeded seed s)).2, 5 * (L * L) < r.fuel := by
    intro r hr
    rw [growthRuns_fuel _ _ _ _ _ r hr]; exact hf
  refine ⟨by rw [hq, List.length_map, growthRuns_length], ?_, ?_⟩
  · intro q hqm
    rw [hq] at hqm
    obtain ⟨r, hr, rfl⟩ := List.mem_map.1 hqm
    obtain ⟨S, e', _⟩ := fresh_exists (realEnv so) v hL fun _ => 0
    obtain ⟨_, _, _, _, _, hp⟩ := C92_realisation (env := realEnv so) (.new e') hv (fun _ => 0) (hfu r hr) r.steps
    exact hp
  · have hv' : v ≠ .sp := by rcases hv with rfl | rfl <;> decide
    obtain ⟨table, crit, e, _, _, h2⟩ := exact_table (so := so) hv' hL pl (choices (L * L) (G.answers (countdown (L * L)) (G.seeded seed s)).1) hne hfu
      (orders_growth (realEnv so) hv hL _ hne hfu)
    obtain ⟨h0, h1⟩ := exact_rows (so := so) hv' hL pl _ hne hfu (orders_growth (realEnv so) hv hL _ hne hfu) e
    rw [← hq] at h1 h2
    exact ⟨table, crit, by rw [runEnsembleG_growth G _ hv hL, e], h0, h1, h2⟩

end SqPerc
