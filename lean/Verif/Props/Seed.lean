import Verif.Model.Rng
import Verif.Props.CrossCheck
/-
Property C61: seeded runs are reproducible, and what a realisation depends on.
-/
namespace SqPerc

variable {σ α : Type} {L : Nat} {G : Rng σ} {env : Env α} {v : Variant} {S : Perc α}

/-! ### Runs with a generator are runs of the model with some random numbers -/

theorem runLoopG_refines (fuel : Nat) : ∀ (S : Perc α) (g : σ), ∃ ds : Nat → Draw,
    (Prod.fst <$> Perc.runLoopG G env v fuel S g) = Perc.runLoop env v fuel ds S := by
  induction fuel with
  | zero => intro S g; exact ⟨fun _ => ⟨0, 0⟩, rfl⟩
  | succ fuel ih =>
    intro S g
    cases hp : S.placeOneSite env v (S.drawG G v g).1 with
    | error x =>
      refine ⟨fun _ => (S.drawG G v g).1, ?_⟩
      simp only [Perc.runLoopG, Perc.runLoop, hp]; rfl
    | ok r =>
      obtain ⟨R, more⟩ := r
      have step : ∀ (ds : Nat → Draw), Perc.runLoop env v (fuel + 1) (fun i => if i = 0 then (S.drawG G v g).1 else ds (i - 1)) S =
          (if more then if R.selectionFlag = some .success then (do
            let (S, _) ← R.detectWrapping
            let S ← S.record env
            Perc.runLoop env v fuel ds S) else Perc.runLoop env v fuel ds R else .ok R) := by
        intro ds
        simp only [Perc.runLoop, if_pos, hp]
        rfl
      cases more with
      | false =>
        refine ⟨_, Eq.trans ?_ (step fun _ => ⟨0, 0⟩).symm⟩
        simp only [Perc.runLoopG, hp]; rfl
      | true =>
        by_cases hf : R.selectionFlag = some .success
        · simp only [hf, if_true] at step
          cases hd : R.detectWrapping with
          | error x =>
            refine ⟨_, Eq.trans ?_ (step fun _ => ⟨0, 0⟩).symm⟩
            simp only [Perc.runLoopG, hp, hd, hf, if_true, bind, Except.bind]; rfl
          | ok q =>
            cases hr : q.1.record env with
            | error x =>
              refine ⟨_, Eq.trans ?_ (step fun _ => ⟨0, 0⟩).symm⟩
              simp only [Perc.runLoopG, hp, hd, hf, hr, if_true, bind, Except.bind]; rfl
            | ok R2 =>
              obtain ⟨ds, e⟩ := ih R2 (S.drawG G v g).2
              refine ⟨_, Eq.trans ?_ (step ds).symm⟩
              simp only [Perc.runLoopG, hp, hd, hf, hr, if_true, bind, Except.bind]
              exact e
        · simp only [hf, if_true, if_false] at step
          obtain ⟨ds, e⟩ := ih R (S.drawG G v g).2
          refine ⟨_, Eq.trans ?_ (step ds).symm⟩
          simp only [Perc.runLoopG, hp, hf, if_true, if_false, bind, Except.bind]
          exact e

theorem runOnceG_refines (fuel : Nat) (S : Perc α) (g : σ) : ∃ ds : Nat → Draw,
    (Prod.fst <$> S.runOnceG G env v fuel g) = S.runOnceV env v fuel ds := by
  have gen : ∃ ds : Nat → Draw, (Prod.fst <$> (do
      let (S, g) ← Perc.runLoopG G env v fuel S g
      return ({ S with firstRun := false }, g) : Py (Perc α × σ))) = S.runOnce env v fuel ds := by
    obtain ⟨ds, e⟩ := runLoopG_refines (G := G) (env := env) (v := v) fuel S g
    refine ⟨ds, ?_⟩
    rw [Perc.runOnce, ← e]
    cases Perc.runLoopG G env v fuel S g <;> rfl
  cases v with
  | sp =>
    refine ⟨fun _ => ⟨0, 0⟩, ?_⟩
    simp only [Perc.runOnceG, Perc.runOnceV]
    cases S.spRunOnce env fuel <;> rfl
  | l0 => exact gen
  | l1 => exact gen
  | l2 => exact gen

/-- C61: `reset(); run_once()` with a generator is `reset(); run_once()` of the model for some random numbers. -/
theorem realisationG_refines (fuel : Nat) (S : Perc α) (g : σ) : ∃ r : RunDraws, r.fuel = fuel ∧
    (Prod.fst <$> realisationG G env v fuel S g) = realisation env v S r := by
  simp only [realisationG, Perc.resetG, realisation]
  obtain ⟨f, hf⟩ : ∃ f, f = (if S.doShuffle then G.shuffleDraws (S.siteIds.length - 1) g else (fun _ => 0, g)) := ⟨_, rfl⟩
  rw [← hf]
  cases hr : S.reset env v f.1 with
  | error x =>
    refine ⟨⟨f.1, fun _ => ⟨0, 0⟩, fuel⟩, rfl, ?_⟩
    simp only [hr]; rfl
  | ok S1 =>
    obtain ⟨ds, e⟩ := runOnceG_refines (G := G) (env := env) (v := v) fuel S1 f.2
    refine ⟨⟨f.1, ds, fuel⟩, rfl, ?_⟩
    simp only [hr, bind, Except.bind]
    exact e

theorem ensembleLoopG_refines (pl : Bool) (fuel n : Nat) : ∀ (S : Perc α) (g : σ) (data : Option (List (List α))) (crit : List (CritRow α)),
    ∃ rs : List RunDraws, rs.length = n ∧ (∀ r ∈ rs, r.fuel = fuel) ∧
      ensembleLoopG G env v pl fuel n S g data crit = ensembleLoop env v pl rs S data crit := by
  induction n with
  | zero => intro S g data crit; exact ⟨[], rfl, by simp, rfl⟩
  | succ n ih =>
    intro S g data crit
    obtain ⟨r, hr, e⟩ := realisationG_refines (G := G) (env := env) (v := v) fuel S g
    simp only [ensembleLoopG]
    have more : ∀ (rs : List RunDraws), rs.length = n → (∀ r ∈ rs, r.fuel = fuel) → (r :: rs).length = n + 1 ∧ ∀ q ∈ r :: rs, q.fuel = fuel :=
      fun rs h1 h2 => ⟨by simp [h1], by simpa using ⟨hr, h2⟩⟩
    have dflt := more (List.replicate n r) (by simp) (by intro q hq; rw [List.eq_of_mem_replicate hq, hr])
    cases hg : realisationG G env v fuel S g with
    | error x =>
      rw [hg] at e
      refine ⟨_, dflt.1, dflt.2, ?_⟩
      simp only [ensembleLoop, ← e]; rfl
    | ok q =>
      rw [hg] at e
      have e : realisation env v S r = .ok q.1 := e.symm
      cases ha : q.1.getDataArray with
      | error x =>
        refine ⟨_, dflt.1, dflt.2, ?_⟩
        simp only [ensembleLoop, e, ha, bind, Except.bind]
      | ok aaa =>
        cases hl : (if pl then (do let _ ← pyGetI aaa (-1)) else pure () : Py Unit) with
        | error x =>
          refine ⟨_, dflt.1, dflt.2, ?_⟩
          cases pl with
          | false => cases hl
          | true =>
            cases hx : pyGetI aaa (-1) with
            | ok y => rw [hx] at hl; cases hl
            | error y => simp only [ensembleLoop, e, ha, hx, if_true, bind, Except.bind]
        | ok u =>
          cases data with
          | none =>
            obtain ⟨rs, h1, h2, h3⟩ := ih q.1 q.2 (some aaa) (crit ++ [critRow env q.1])
            refine ⟨r :: rs, (more rs h1 h2).1, (more rs h1 h2).2, ?_⟩
            cases pl with
            | false => simp only [ensembleLoop, e, ha, bind, Except.bind]; exact h3
            | true =>
              cases hx : pyGetI aaa (-1) with
              | error y => rw [hx] at hl; cases hl
              | ok y => simp only [ensembleLoop, e, ha, hx, if_true, bind, Except.bind]; exact h3
          | some d =>
            cases hd : addArrays env d aaa with
            | error x =>
              refine ⟨_, dflt.1, dflt.2, ?_⟩
              cases pl with
              | false => simp only [ensembleLoop, e, ha, hd, bind, Except.bind]
              | true =>
                cases hx : pyGetI aaa (-1) with
                | error y => rw [hx] at hl; cases hl
                | ok y => simp only [ensembleLoop, e, ha, hx, hd, if_true, bind, Except.bind]
            | ok d' =>
              obtain ⟨rs, h1, h2, h3⟩ := ih q.1 q.2 (some d') (crit ++ [critRow env q.1])
              refine ⟨r :: rs, (more rs h1 h2).1, (more rs h1 h2).2, ?_⟩
              cases pl with
              | false => simp only [ensembleLoop, e, ha, hd, bind, Except.bind]; exact h3
              | true =>
                cases hx : pyGetI aaa (-1) with
                | error y => rw [hx] at hl; cases hl
                | ok y => simp only [ensembleLoop, e, ha, hx, hd, if_true, bind, Except.bind]; exact h3

theorem spEnsembleLoopG_refines (fuel n : Nat) : ∀ (S : Perc α) (g : σ) (crit : List (α × α)),
    ∃ rs : List RunDraws, rs.length = n ∧ (∀ r ∈ rs, r.fuel = fuel) ∧ spEnsembleLoopG G env fuel n S g crit = spEnsembleLoop env rs S crit := by
  induction n with
  | zero => intro S g crit; exact ⟨[], rfl, by simp, rfl⟩
  | succ n ih =>
    intro S g crit
    obtain ⟨r, hr, e⟩ := realisationG_refines (G := G) (env := env) (v := .sp) fuel S g
    simp only [spEnsembleLoopG]
    cases hg : realisationG G env .sp fuel S g with
    | error x =>
      rw [hg] at e
      refine ⟨r :: List.replicate n r, by simp, ?_, ?_⟩
      · intro q hq
        rcases List.mem_cons.1 hq with rfl | hq
        · exact hr
        · rw [List.eq_of_mem_replicate hq, hr]
      · simp only [spEnsembleLoop, ← e]; rfl
    | ok q =>
      rw [hg] at e
      have e : realisation env .sp S r = .ok q.1 := e.symm
      obtain ⟨rs, h1, h2, h3⟩ := ih q.1 q.2 (crit ++ [(q.1.getPc env, q.1.shortestP)])
      refine ⟨r :: rs, by simp [h1], by simpa using ⟨hr, h2⟩, ?_⟩
      simp only [spEnsembleLoop, e, bind, Except.bind]; exact h3

theorem newG_refines (seed : Option Int) (g : σ) : ∃ draws, (Prod.fst <$> Perc.newG G env L seed g) = Perc.new env L draws := by
  refine ⟨(G.shuffleDraws (L * L - 1) (G.seeded seed g)).1, ?_⟩
  simp only [Perc.newG]
  cases Perc.new env L (G.shuffleDraws (L * L - 1) (G.seeded seed g)).1 <;> rfl

theorem newG_zero (seed : Option Int) (g : σ) : Perc.newG G env 0 seed g = .error .valueError := by
  simp only [Perc.newG, new_eq, if_true]; rfl

theorem newG_ok (hL : 0 < L) (seed : Option Int) (g : σ) : ∃ q, Perc.newG G env L seed g = .ok q := by
  simp only [Perc.newG]
  obtain ⟨rev, e, _⟩ := new_ok env hL (G.shuffleDraws (L * L - 1) (G.seeded seed g)).1
  exact ⟨_, by rw [e]; rfl⟩

theorem newForRun_refines (seed : Option Int) (g : σ) : ∃ draws, (Prod.fst <$> Perc.newForRun G env L seed g) = Perc.new env L draws := by
  cases seed with
  | none =>
    obtain ⟨d, e⟩ := newG_refines (G := G) (env := env) (L := L) none g
    refine ⟨d, ?_⟩
    rw [← e, Perc.newForRun]
    cases Perc.newG G env L none g <;> rfl
  | some k =>
    rcases Nat.eq_zero_or_pos L with rfl | hL
    · refine ⟨fun _ => 0, ?_⟩
      simp only [Perc.newForRun, newG_zero, new_eq, if_true]; rfl
    · obtain ⟨q, hq⟩ := newG_ok (G := G) (env := env) hL none g
      obtain ⟨d, e⟩ := newG_refines (G := G) (env := env) (L := L) (some k) q.2
      refine ⟨d, ?_⟩
      rw [← e, Perc.newForRun, hq]; rfl

theorem newForRun_seed (k : Int) (g g' : σ) : Perc.newForRun G env L (some k) g = Perc.newForRun G env L (some k) g' := by
  rcases Nat.eq_zero_or_pos L with rfl | hL
  · simp only [Perc.newForRun, newG_zero]
    try rfl
  · obtain ⟨q, hq⟩ := newG_ok (G := G) (env := env) hL none g
    obtain ⟨q', hq'⟩ := newG_ok (G := G) (env := env) hL none g'
    simp only [Perc.newForRun, hq, hq', bind, Except.bind]
    rfl

/-- C61: the tables written by a run whose random numbers come from a generator, with or without a seed, are tables of the model for some
random numbers, so everything proved about `runEnsemble` holds for them. -/
theorem C61_run_with_generator (pl : Bool) (fuel n : Nat) (seed : Option Int) (g : σ) : ∃ (ctor : Nat → Nat) (rs : List RunDraws),
    rs.length = n ∧ (∀ r ∈ rs, r.fuel = fuel) ∧ runEnsembleG G env v pl fuel L n seed g = runEnsemble env v pl L ctor rs := by
  obtain ⟨ctor, e⟩ := newForRun_refines (G := G) (env := env) (L := L) seed g
  simp only [runEnsembleG, runEnsemble]
  cases hn : Perc.newForRun G env L seed g with
  | error x =>
    rw [hn] at e
    refine ⟨ctor, List.replicate n ⟨fun _ => 0, fun _ => ⟨0, 0⟩, fuel⟩, by simp, by intro q hq; rw [List.eq_of_mem_replicate hq], ?_⟩
    rw [← e]; rfl
  | ok q =>
    rw [hn] at e
    obtain ⟨rs, h1, h2, h3⟩ := ensembleLoopG_refines (G := G) (env := env) (v := v) pl fuel n q.1 q.2 none []
    refine ⟨ctor, rs, h1, h2, ?_⟩
    rw [← e]
    simp only [bind, Except.bind, h3, h1]
    rfl

/-- C61: the same for the shortest path runs. -/
theorem C61_sp_run_with_generator (fuel n : Nat) (seed : Option Int) (g : σ) : ∃ (ctor : Nat → Nat) (rs : List RunDraws),
    rs.length = n ∧ (∀ r ∈ rs, r.fuel = fuel) ∧ spEnsembleG G env fuel L n seed g = spEnsemble env L ctor rs := by
  obtain ⟨ctor, e⟩ := newForRun_refines (G := G) (env := env) (L := L) seed g
  simp only [spEnsembleG, spEnsemble]
  cases hn : Perc.newForRun G env L seed g with
  | error x =>
    rw [hn] at e
    refine ⟨ctor, List.replicate n ⟨fun _ => 0, fun _ => ⟨0, 0⟩, fuel⟩, by simp, by intro q hq; rw [List.eq_of_mem_replicate hq], ?_⟩
    rw [← e]; rfl
  | ok q =>
    rw [hn] at e
    obtain ⟨rs, h1, h2, h3⟩ := spEnsembleLoopG_refines (G := G) (env := env) fuel n q.1 q.2 []
    refine ⟨ctor, rs, h1, h2, ?_⟩
    rw [← e]
    simp only [bind, Except.bind, h3]
    rfl

/-- C61: the same for `single_realization`. -/
theorem C61_single_with_generator (fuel : Nat) (g : σ) : ∃ (ctor : Nat → Nat) (r : RunDraws), r.fuel = fuel ∧
    singleRealizationG G env v fuel L g = singleRealization env v L ctor r := by
  obtain ⟨ctor, e⟩ := newG_refines (G := G) (env := env) (L := L) none g
  simp only [singleRealizationG, singleRealization]
  cases hn : Perc.newG G env L none g with
  | error x =>
    rw [hn] at e
    refine ⟨ctor, ⟨fun _ => 0, fun _ => ⟨0, 0⟩, fuel⟩, rfl, ?_⟩
    rw [← e]; rfl
  | ok q =>
    rw [hn] at e
    obtain ⟨r, h1, h2⟩ := realisationG_refines (G := G) (env := env) (v := v) fuel q.1 q.2
    refine ⟨ctor, r, h1, ?_⟩
    have e' : Perc.new env L ctor = .ok q.1 := e.symm
    simp only [bind, Except.bind, e', ← h2]
    cases realisationG G env v fuel q.1 q.2 <;> rfl

/-- C61: with a seed, the tables (or the exception) do not depend on the state in which the generator was before. -/
theorem C61_seed_reproducible (pl : Bool) (fuel n : Nat) (k : Int) (g g' : σ) :
    runEnsembleG G env v pl fuel L n (some k) g = runEnsembleG G env v pl fuel L n (some k) g' ∧
    spEnsembleG G env fuel L n (some k) g = spEnsembleG G env fuel L n (some k) g' := by
  constructor
  · simp only [runEnsembleG, newForRun_seed k g g']
  · simp only [spEnsembleG, newForRun_seed k g g']

/-! ### What a realisation depends on -/

theorem drawG_put (T : Perc α) (S : Perc α) (g : σ) : (S.put T).drawG G v g = S.drawG G v g := by
  cases v <;> rfl

theorem runLoopG_agree (fuel : Nat) : ∀ {g : σ} {S S' : Perc α}, S' = S.put S' →
    PyRel (fun R R' : Perc α × σ => R'.1 = R.1.put R'.1 ∧ R'.2 = R.2) (Perc.runLoopG G env v fuel S g) (Perc.runLoopG G env v fuel S' g) := by
  induction fuel with
  | zero => intro g S S' _; rfl
  | succ fuel ih =>
    intro g S S' h
    have hd : S'.drawG G v g = S.drawG G v g := by rw [h]; exact drawG_put _ _ _
    simp only [Perc.runLoopG, hd]
    refine (place_put h _).bind ?_
    rintro ⟨R, b⟩ ⟨R', b'⟩ ⟨h1, h2, h3, h4⟩
    simp only at h1 h2 h3 h4 ⊢
    subst h1
    split
    · rw [h3]
      split
      · next hf =>
        refine (detect_agree ⟨h2, h4 (Or.inl hf), h3⟩).bind ?_
        rintro ⟨R1, w⟩ ⟨R1', w'⟩ ⟨_, h5⟩
        refine (record_agree h5).bind ?_
        intro R2 R2' h6
        exact ih h6.put
      · exact ih h2
    · exact ⟨h2, rfl⟩

theorem runOnceG_agree {S S' : Perc α} (h : S' = S.put S') (fuel : Nat) (g : σ) :
    PyRel (fun R R' : Perc α × σ => R'.1 = R.1.put R'.1 ∧ R'.2 = R.2) (S.runOnceG G env v fuel g) (S'.runOnceG G env v fuel g) := by
  have gen : PyRel (fun R R' : Perc α × σ => R'.1 = R.1.put R'.1 ∧ R'.2 = R.2)
      (do let (S, g) ← S.runLoopG G env v fuel g; return ({ S with firstRun := false }, g))
      (do let (S, g) ← S'.runLoopG G env v fuel g; return ({ S with firstRun := false }, g)) := by
    refine (runLoopG_agree fuel h).bind ?_
    rintro ⟨R, g1⟩ ⟨R', g2⟩ ⟨h1, h2⟩
    simp only at h1 h2
    obtain ⟨T, rfl⟩ : ∃ T, R' = R.put T := ⟨R', h1⟩
    exact ⟨rfl, h2⟩
  cases v with
  | sp =>
    refine PyRel.bind (R := fun R R' : Perc α => R' = R.put R') ?_ fun a b hab => ⟨hab, rfl⟩
    have := runOnceV_agree (env := env) (v := .sp) h fuel (fun _ => ⟨0, 0⟩)
    simp only [Perc.runOnceV] at this
    revert this
    cases S.spRunOnce env fuel with
    | error x => cases S'.spRunOnce env fuel <;> exact id
    | ok a => cases S'.spRunOnce env fuel with
      | error x => exact id
      | ok b => exact fun h => h.1
  | l0 => exact gen
  | l1 => exact gen
  | l2 => exact gen

/-- What a caller can read off after a run: everything except the random order, the stale reverse index and the collected occupation
probabilities. -/
structure SameResults (R R' : Perc α) : Prop where
  lat : R'.lat = R.lat
  pool : R'.pool = R.pool
  entropy : R'.entropyList = R.entropyList
  wrap : R'.orderWrapList = R.orderWrapList
  largest : R'.orderLargestList = R.orderLargestList
  pc : R'.getPc env = R.getPc env
  sites : R'.getSiteCountPc = R.getSiteCountPc
  bonds : R'.getBondCountPc = R.getBondCountPc
  order : R'.siteIds = R.siteIds
  record : R'.seqRecord = R.seqRecord
  short : R'.shortestP = R.shortestP

theorem reset_siteIds {S S' : Perc α} {draws : Nat → Nat} (h : DefReach env v L S) (hr : S.reset env v draws = .ok S') :
    S'.siteIds = if v = .l1 ∨ v = .l2 then List.range (L * L) else pyShuffle draws S.siteIds := by
  obtain ⟨_, A, M, hA⟩ := h.reach.sim
  obtain ⟨rev, e, _⟩ := resetBase_default M.lat h.live.doSh (by intro k hk; rw [h.reach.ids.2]; exact h.reach.ids.1 k hk) draws
  simp only [Perc.reset] at hr
  rw [e] at hr
  have hl : (mkLat L LV.init).length ^ 2 = L * L := by rw [mkLat_length, Nat.pow_two]
  cases v <;> rw [← Except.ok.inj hr]
  · simp
  · simp [← hl]
  · simp [← hl]
  · simp

/-- C61: what `reset(); run_once()` gives depends only on the state of the generator and, for the base class, L0 and the shortest path class,
on the order of the sites left behind by the previous run; for L1 and L2 on the state of the generator alone. -/
theorem C61_realisation_depends {S S' : Perc α} (h : DefReach env v L S) (h' : DefReach env v L S')
    (ho : v = .l1 ∨ v = .l2 ∨ S'.siteIds = S.siteIds) (fuel : Nat) (g : σ) :
    PyRel (fun R R' : Perc α × σ => SameResults (env := env) R.1 R'.1 ∧ R'.2 = R.2)
      (realisationG G env v fuel S g) (realisationG G env v fuel S' g) := by
  have l := h.live
  have l' := h'.live
  simp only [realisationG, Perc.resetG, l.doSh, l'.doSh, l.len, l'.len, if_true]
  obtain ⟨f, hf⟩ : ∃ f, f = G.shuffleDraws (L * L - 1) g := ⟨_, rfl⟩
  rw [← hf]
  obtain ⟨R, hR⟩ := h.reach.reset_total f.1
  obtain ⟨R', hR'⟩ := h'.reach.reset_total f.1
  have hL : 0 < L := h.reach.sim.1
  obtain ⟨_, e, _⟩ := new_ok env hL f.1
  obtain ⟨e1, f1, _⟩ := reset_new h.reach hR e
  obtain ⟨e1', f1', _⟩ := reset_new h'.reach hR' e
  have hids : R'.siteIds = R.siteIds := by
    rw [reset_siteIds h hR, reset_siteIds h' hR']
    rcases ho with rfl | rfl | ho
    · rfl
    · rfl
    · rw [ho]
  have hm : R'.maxIter = R.maxIter := (l'.reset_ok hR').maxIter.trans (l.reset_ok hR).maxIter.symm
  have hput : R' = R.put R' := by
    conv => rhs; rw [e1]
    conv => lhs; rw [e1']
    rw [hids, hm]; rfl
  simp only [hR, hR', bind, Except.bind, pure, Except.pure]
  have := runOnceG_agree (G := G) (env := env) (v := v) hput fuel f.2
  revert this
  cases R.runOnceG G env v fuel f.2 with
  | error x => cases R'.runOnceG G env v fuel f.2 <;> exact id
  | ok a => cases R'.runOnceG G env v fuel f.2 with
    | error x => exact id
    | ok b =>
      rintro ⟨h1, h2⟩
      obtain ⟨b, g2⟩ := b
      simp only at h1 h2
      obtain ⟨T, rfl⟩ : ∃ T, b = a.1.put T := ⟨b, h1⟩
      exact ⟨⟨rfl, rfl, rfl, rfl, rfl, rfl, rfl, rfl, rfl, rfl, rfl⟩, h2⟩

/-- A generator whose numbers are all as small or all as large as possible, depending on its state; seeding makes them small. -/
def demoRng : Rng Bool := ⟨fun _ => true, fun n b => (if b then 0 else n - 1, b)⟩

/-- C61: for L0 the order left behind by the previous run matters: two objects that differ in nothing else give different results from the
same state of the generator. -/
theorem C61_l0_order_matters : ∃ (S S' R R' : Perc Unit) (g1 g2 : Bool), DefReach demoEnv .l0 3 S ∧ DefReach demoEnv .l0 3 S' ∧
    realisationG demoRng demoEnv .l0 100 S true = .ok (R, g1) ∧ realisationG demoRng demoEnv .l0 100 S' true = .ok (R', g2) ∧
    R.getSiteCountPc = 4 ∧ R'.getSiteCountPc = 5 := by
  have key : ∀ (d : Nat → Nat) (m : Nat),
      (match (do let S ← Perc.new demoEnv 3 d; let q ← realisationG demoRng demoEnv .l0 100 S true; return q.1.getSiteCountPc : Py Nat) with
        | .ok n => n | .error _ => 0) = m + 1 →
      ∃ S R g, DefReach demoEnv .l0 3 S ∧ realisationG demoRng demoEnv .l0 100 S true = .ok (R, g) ∧ R.getSiteCountPc = m + 1 := by
    intro d m h
    cases hn : Perc.new demoEnv 3 d with
    | error x => simp only [hn, bind, Except.bind] at h; cases h
    | ok S =>
      cases hr : realisationG demoRng demoEnv .l0 100 S true with
      | error x => simp only [hn, hr, bind, Except.bind] at h; cases h
      | ok q =>
        simp only [hn, hr, bind, Except.bind, pure, Except.pure] at h
        exact ⟨S, q.1, q.2, .new hn, hr, h⟩
  obtain ⟨S, R, g1, h1, h2, h3⟩ := key (fun _ => 0) 3 (by decide +kernel)
  obtain ⟨S', R', g2, h1', h2', h3'⟩ := key (fun i => i) 4 (by decide +kernel)
  exact ⟨S, S', R, R', g1, g2, h1, h1', h2, h2', h3, h3'⟩

/-- The site counts at the critical point in the second table of a run. -/
def siteCounts (r : Py (List (List Unit) × List (CritRow Unit))) : List Nat :=
  match r with
  | .ok q => q.2.map CritRow.sites
  | .error _ => []

/-- C61: without a seed the tables do depend on the state of the generator (and with the seed they do not, whatever the state). -/
theorem C61_unseeded_differs :
    siteCounts (runEnsembleG demoRng demoEnv .l0 false 100 3 2 none true) ≠ siteCounts (runEnsembleG demoRng demoEnv .l0 false 100 3 2 none false) ∧
    siteCounts (runEnsembleG demoRng demoEnv .l0 false 100 3 2 (some 7) true) ≠ [] := by
  decide +kernel

/-- Histories to which `C61_realisation_depends` applies: a new object and one that has been used, for L1. -/
example : ∃ S S' : Perc Unit, DefReach demoEnv .l1 2 S ∧ DefReach demoEnv .l1 2 S' ∧ S'.occupiedCount = 1 ∧ S.occupiedCount = 0 := by
  obtain ⟨S, h, hp⟩ := checkOps_def (env := demoEnv) (v := .l1) (L := 2) (ops := []) (p := fun S => decide (S.occupiedCount = 0)) (by simp)
    (by decide +kernel)
  obtain ⟨S', h', hp'⟩ := checkOps_def (env := demoEnv) (v := .l1) (L := 2) (ops := [.place ⟨0, 0⟩]) (p := fun S => decide (S.occupiedCount = 1))
    (by decide) (by decide +kernel)
  exact ⟨S, S', h, h', of_decide_eq_true hp', of_decide_eq_true hp⟩

end SqPerc
