import Verif.Props.Seed
/-
Property C72: which numbers the code asks the generator for, and in which order.
-/
namespace SqPerc

variable {σ α : Type} {L : Nat} {G : Rng σ} {env : Env α} {v : Variant} {S : Perc α}

/-- Specification: the answers of the generator to a list of requests, made one after the other, and the state it is left in.  A request `n`
asks for a number below `n`. -/
def Rng.answers (G : Rng σ) : List Nat → σ → List Nat × σ
  | [], g => ([], g)
  | n :: ns, g => ((G.below n g).1 :: (G.answers ns (G.below n g).2).1, (G.answers ns (G.below n g).2).2)

/-- Specification: `[n, n-1, ..., 2]`. -/
def countdown (n : Nat) : List Nat := (List.range' 2 (n - 1)).reverse

/-- Specification: the numbers `as` as the choices of a shuffle of `n` items: the first one is for the last position, the next one for the position
before it, and so on. -/
def choices (n : Nat) (as : List Nat) (j : Nat) : Nat := if j < n then as.getD (n - 1 - j) 0 else 0

/-- Specification: the answers to the same list of requests made `m` times in a row. -/
def Rng.blocks (G : Rng σ) (reqs : List Nat) : Nat → σ → List (List Nat)
  | 0, _ => []
  | m + 1, g => (G.answers reqs g).1 :: G.blocks reqs m (G.answers reqs g).2

theorem countdown_succ (i : Nat) : countdown (i + 2) = (i + 2) :: countdown (i + 1) := by
  unfold countdown
  rw [show i + 2 - 1 = i + 1 from rfl, show i + 1 - 1 = i from rfl, List.range'_concat, List.reverse_append]
  simp
  omega

theorem answers_length (reqs : List Nat) : ∀ g : σ, (G.answers reqs g).1.length = reqs.length := by
  induction reqs with
  | nil => intro g; rfl
  | cons n ns ih => intro g; simp only [Rng.answers, List.length_cons, ih]

theorem countdown_length (n : Nat) : (countdown n).length = n - 1 := by simp [countdown]

theorem shuffleDraws_eq (i : Nat) : ∀ g : σ, G.shuffleDraws i g =
    (choices (i + 1) (G.answers (countdown (i + 1)) g).1, (G.answers (countdown (i + 1)) g).2) := by
  induction i with
  | zero =>
    intro g
    simp only [Rng.shuffleDraws, countdown]
    refine Prod.ext ?_ rfl
    funext j
    simp [choices, Rng.answers]
  | succ i ih =>
    intro g
    simp only [Rng.shuffleDraws, ih, countdown_succ, Rng.answers]
    refine Prod.ext ?_ rfl
    funext j
    show (if j = i + 1 then _ else choices _ _ j) = choices _ _ j
    unfold choices
    by_cases h1 : j = i + 1
    · subst h1
      simp
    · rw [if_neg h1]
      by_cases h2 : j < i + 1
      · rw [if_pos h2, if_pos (by omega), show i + 1 + 1 - 1 - j = (i - j) + 1 by omega, List.getD_cons_succ]
        rfl
      · rw [if_neg h2, if_neg (by omega)]

theorem shuffleDraws_pred {n : Nat} (g : σ) : G.shuffleDraws (n - 1) g =
    (choices (n - 1 + 1) (G.answers (countdown n) g).1, (G.answers (countdown n) g).2) := by
  rw [shuffleDraws_eq]
  cases n <;> rfl

theorem shuffleDraws_pos {n : Nat} (hn : 0 < n) (g : σ) : G.shuffleDraws (n - 1) g =
    (choices n (G.answers (countdown n) g).1, (G.answers (countdown n) g).2) := by
  rw [shuffleDraws_pred, show n - 1 + 1 = n by omega]

/-- C72: constructing an object with a seed is constructing one without when the generator has just been seeded; no number is taken in
between. -/
theorem C72_seed (k : Int) (g : σ) : Perc.newG G env L (some k) g = Perc.newG G env L none (G.seed k) := rfl

/-- C72: construction asks for numbers below `L²`, `L²-1`, ..., `2` in this order and nothing else, and the placement order is the shuffle of
`0, 1, ..., L²-1` with the answers. -/
theorem C72_new (hL : 0 < L) (g : σ) : ∃ S, Perc.newG G env L none g = .ok (S, (G.answers (countdown (L * L)) g).2) ∧
    S.siteIds = pyShuffle (choices (L * L) (G.answers (countdown (L * L)) g).1) (List.range (L * L)) := by
  simp only [Perc.newG, Rng.seeded]
  rw [shuffleDraws_pos (Nat.mul_pos hL hL)]
  obtain ⟨rev, e, _⟩ := new_ok env hL (choices (L * L) (G.answers (countdown (L * L)) g).1)
  rw [e]
  exact ⟨_, rfl, rfl⟩

/-- C72: `reset()` of an object that shuffles asks for numbers below the length of its list, and then one less each time down to `2`; with
`do_shuffle=False` it asks for nothing. -/
theorem C72_reset {R : Perc α} {g g' : σ} (h : S.resetG G env v g = .ok (R, g')) :
    g' = (G.answers (if S.doShuffle then countdown S.siteIds.length else []) g).2 := by
  simp only [Perc.resetG] at h
  cases hs : S.doShuffle with
  | false =>
    rw [hs] at h
    cases hr : S.reset env v (fun _ => 0) with
    | error x => simp only [hr, Bool.false_eq_true, if_false] at h; cases h
    | ok T =>
      simp only [hr, Bool.false_eq_true, if_false] at h
      have := Except.ok.inj h
      exact (congrArg Prod.snd this).symm
  | true =>
    rw [hs] at h
    simp only [if_true] at h ⊢
    rw [shuffleDraws_pred] at h
    simp only at h
    cases hr : S.reset env v (choices (S.siteIds.length - 1 + 1) (G.answers (countdown S.siteIds.length) g).1) with
    | error x => rw [hr] at h; cases h
    | ok T =>
      rw [hr] at h
      exact (congrArg Prod.snd (Except.ok.inj h)).symm

/-- C72: in the default mode `reset()` asks for numbers below `L²`, ..., `2`, and in L0 and the shortest-path class the next run places the sites in
the order obtained by shuffling the old order with the answers. -/
theorem C72_reset_default (h : DefReach env v L S) (g : σ) : ∃ R, S.resetG G env v g = .ok (R, (G.answers (countdown (L * L)) g).2) ∧
    S.reset env v (choices (L * L) (G.answers (countdown (L * L)) g).1) = .ok R ∧
    R.siteIds = if v = .l1 ∨ v = .l2 then List.range (L * L) else
      pyShuffle (choices (L * L) (G.answers (countdown (L * L)) g).1) S.siteIds := by
  obtain ⟨R, e, _⟩ := h.live.reset (choices (L * L) (G.answers (countdown (L * L)) g).1)
  refine ⟨R, ?_, e, reset_siteIds h e⟩
  simp only [Perc.resetG, h.live.doSh, if_true, h.live.len]
  rw [shuffleDraws_pos (by obtain ⟨hL, _⟩ := h.reach.sim; exact Nat.mul_pos hL hL)]
  simp only [e]; rfl

/-- C72: `place_one_site()` of L0 and the shortest-path class asks for nothing. -/
theorem C72_place_plain (hv : v.plain = true) (S : Perc α) (g : σ) : (S.drawG G v g).2 = g := by
  cases v <;> first | rfl | cases hv

/-- C72: what `place_one_site()` of L1 and L2 asks for.  When no candidate is left it asks for nothing.  Otherwise it asks for a number below the
number of candidates.  If the candidate in that place is empty that is all; if it is occupied it then asks for a number below 4 to choose a
neighbour. -/
theorem C72_place_l1l2 (h : Reach env v L S) (hv : v.plain = false) (g : σ) :
    ((S.siteIds.drop S.currentIdx = [] ∨ L * L ≤ S.currentIdx) → (S.drawG G v g).2 = g) ∧
    (S.siteIds.drop S.currentIdx ≠ [] → S.currentIdx < L * L →
      let w := (S.siteIds.drop S.currentIdx).length
      ∃ x, (S.siteIds.drop S.currentIdx)[(G.below w g).1 % w]? = some x ∧
        (¬ S.Occ x → ∃ b, S.drawG G v g = (⟨(G.below w g).1, b⟩, (G.answers [w] g).2)) ∧
        (S.Occ x → ∃ a b, (G.answers [w, 4] g).1 = [a, b] ∧ S.drawG G v g = (⟨a, b⟩, (G.answers [w, 4] g).2))) := by
  obtain ⟨_, A, M, hA⟩ := h.sim
  have hcount : S.lat.siteCount = L * L := by rw [M.lat, mkLat_siteCount]
  have hd : S.drawG G v g = if S.currentIdx ≥ S.lat.siteCount ∨ S.siteIds.length ≤ S.currentIdx then (⟨0, 0⟩, g)
    else
      let a := G.below (S.siteIds.length - S.currentIdx) g
      match S.secondRange (S.currentIdx + a.1 % (S.siteIds.length - S.currentIdx)) with
      | none => (⟨a.1, 0⟩, a.2)
      | some n =>
        let b := G.below n a.2
        (⟨a.1, b.1⟩, b.2) := by
    cases v <;> first | rfl | cases hv
  constructor
  · intro hc
    rw [hd, if_pos]
    rcases hc with hc | hc
    · exact Or.inr (List.drop_eq_nil_iff.1 hc)
    · exact Or.inl (by rw [hcount]; exact hc)
  · intro h1 h2 w
    have hlt : S.currentIdx < S.siteIds.length := by
      rcases Nat.lt_or_ge S.currentIdx S.siteIds.length with h | h
      · exact h
      · exact absurd (List.drop_eq_nil_iff.2 h) h1
    have hw : w = S.siteIds.length - S.currentIdx := List.length_drop ..
    have hr : S.currentIdx + (G.below w g).1 % w < S.siteIds.length := by
      have := Nat.mod_lt (G.below w g).1 (show 0 < w by omega)
      omega
    obtain ⟨x, hx⟩ : ∃ x, x = S.siteIds[S.currentIdx + (G.below w g).1 % w]'hr := ⟨_, rfl⟩
    have hget : S.siteIds[S.currentIdx + (G.below w g).1 % w]? = some x := by
      rw [List.getElem?_eq_getElem hr, hx]
    have hxl : x < L * L := h.ids.1 x (by rw [hx]; exact List.getElem_mem _)
    have e1 : pyGet S.siteIds (S.currentIdx + (G.below w g).1 % w) = .ok x := by
      simp only [pyGet, hget]
    have e2 : S.lat.getSite x = .ok (mkSite L A.V x) := by rw [M.lat]; exact getSite_mk hxl
    have e3 : S.lat.getAllNeighborSites x = .ok (Dir.all.map (nbr L x)) := by rw [M.lat]; exact getAllNeighborSites_mk hxl
    rw [if_neg (by rw [hcount]; omega), ← hw] at hd
    simp only at hd
    refine ⟨x, by rw [List.getElem?_drop]; exact hget, ?_, ?_⟩
    · intro ho
      have ho : (mkSite L A.V x).isOccupied = false := by
        cases hb : (mkSite L A.V x).isOccupied with
        | false => rfl
        | true => exact absurd ⟨_, e2, hb⟩ ho
      have hsec : S.secondRange (S.currentIdx + (G.below w g).1 % w) = none := by
        simp only [Perc.secondRange, e1, e2, ho, bind, Except.bind, pure, Except.pure]
        rfl
      refine ⟨0, ?_⟩
      rw [hd, hsec]
      rfl
    · intro ho
      obtain ⟨st, h3, h4⟩ := ho
      rw [e2] at h3
      obtain rfl := Except.ok.inj h3
      have hsec : S.secondRange (S.currentIdx + (G.below w g).1 % w) = some 4 := by
        simp only [Perc.secondRange, e1, e2, e3, h4, bind, Except.bind, pure, Except.pure]
        rfl
      refine ⟨(G.below w g).1, (G.below 4 (G.below w g).2).1, rfl, ?_⟩
      rw [hd, hsec]
      rfl

/-! ### Whole runs of L0 and the shortest-path class -/

theorem runLoopG_plain (hv : v.plain = true) (fuel : Nat) : ∀ (ds : Nat → Draw) (S : Perc α) (g : σ),
    Perc.runLoopG G env v fuel S g = (fun R => (R, g)) <$> Perc.runLoop env v fuel ds S := by
  induction fuel with
  | zero => intro ds S g; rfl
  | succ fuel ih =>
    intro ds S g
    have e : S.placeOneSite env v (S.drawG G v g).1 = S.placeOneSite env v (ds 0) := by
      simp only [Perc.placeOneSite, selectSite_plain hv]
    simp only [Perc.runLoopG, Perc.runLoop, C72_place_plain hv, e]
    cases S.placeOneSite env v (ds 0) with
    | error x => rfl
    | ok r =>
      obtain ⟨R, more⟩ := r
      cases more with
      | false => rfl
      | true =>
        simp only [if_true, bind, Except.bind]
        by_cases hf : R.selectionFlag = some .success
        · simp only [if_pos hf]
          cases R.detectWrapping with
          | error x => rfl
          | ok q =>
            simp only
            cases q.1.record env with
            | error x => rfl
            | ok T => exact ih _ T g
        · simp only [if_neg hf]
          exact ih _ R g

/-- C72: `run_once()` of L0 and the shortest-path class asks for nothing. -/
theorem C72_run_plain (hv : v.plain = true) (fuel : Nat) (ds : Nat → Draw) (S : Perc α) (g : σ) :
    S.runOnceG G env v fuel g = (fun R => (R, g)) <$> S.runOnceV env v fuel ds := by
  cases v with
  | l1 => cases hv
  | l2 => cases hv
  | sp => simp only [Perc.runOnceG, Perc.runOnceV]; cases S.spRunOnce env fuel <;> rfl
  | l0 =>
    have := runLoopG_plain (G := G) (env := env) (v := .l0) rfl fuel ds S g
    simp only [Perc.runOnceG, Perc.runOnceV, Perc.runOnce, this]
    cases Perc.runLoop env .l0 fuel ds S <;> rfl

theorem realisationG_plain (hv : v.plain = true) (h : DefReach env v L S) (fuel : Nat) (ds : Nat → Draw) (g : σ) :
    realisationG G env v fuel S g = (fun R => (R, (G.answers (countdown (L * L)) g).2)) <$>
      realisation env v S ⟨choices (L * L) (G.answers (countdown (L * L)) g).1, ds, fuel⟩ := by
  obtain ⟨R, e1, e2, _⟩ := C72_reset_default (G := G) h g
  simp only [realisationG, realisation, e1, e2, bind, Except.bind]
  exact C72_run_plain hv fuel ds R _

theorem DefReach.after_realisation {r : RunDraws} {R : Perc α} (h : DefReach env v L S) (e : SqPerc.realisation env v S r = .ok R) :
    DefReach env v L R := by
  simp only [SqPerc.realisation] at e
  cases h1 : S.reset env v r.shuffle with
  | error x => rw [h1] at e; cases e
  | ok S1 =>
    rw [h1] at e
    exact .step (.runOnce r.fuel r.steps) rfl (.step (.reset r.shuffle) rfl h h1) e

/-- The random numbers of the runs of an ensemble, given the answers to the requests of the resets. -/
def runsOf (N fuel : Nat) (ds : Nat → Draw) (bs : List (List Nat)) : List RunDraws := bs.map fun as => ⟨choices N as, ds, fuel⟩

theorem ensembleLoopG_plain (hv : v.plain = true) (pl : Bool) (fuel : Nat) (ds : Nat → Draw) (n : Nat) :
    ∀ {S : Perc α} (_ : DefReach env v L S) (g : σ) (data : Option (List (List α))) (crit : List (CritRow α)),
    ensembleLoopG G env v pl fuel n S g data crit =
      ensembleLoop env v pl (runsOf (L * L) fuel ds (G.blocks (countdown (L * L)) n g)) S data crit := by
  induction n with
  | zero => intro S _ g data crit; rfl
  | succ n ih =>
    intro S h g data crit
    simp only [ensembleLoopG, Rng.blocks, runsOf, List.map_cons, ensembleLoop, realisationG_plain hv h fuel ds]
    cases hr : realisation env v S ⟨choices (L * L) (G.answers (countdown (L * L)) g).1, ds, fuel⟩ with
    | error x => rfl
    | ok R =>
      simp only [Functor.map, Except.map, bind, Except.bind]
      cases R.getDataArray with
      | error x => rfl
      | ok aaa =>
        have next := ih (h.after_realisation hr) (G.answers (countdown (L * L)) g).2
        cases pl with
        | false =>
          cases data with
          | none => exact next _ _
          | some d =>
            simp only [Bool.false_eq_true, if_false]
            cases addArrays env d aaa with
            | error x => rfl
            | ok d' => exact next _ _
        | true =>
          simp only [if_true]
          cases pyGetI aaa (-1) with
          | error x => rfl
          | ok y =>
            cases data with
            | none => exact next _ _
            | some d =>
              simp only
              cases addArrays env d aaa with
              | error x => rfl
              | ok d' => exact next _ _

theorem spEnsembleLoopG_plain (fuel : Nat) (ds : Nat → Draw) (n : Nat) : ∀ {S : Perc α} (_ : DefReach env .sp L S) (g : σ) (crit : List (α × α)),
    spEnsembleLoopG G env fuel n S g crit = spEnsembleLoop env (runsOf (L * L) fuel ds (G.blocks (countdown (L * L)) n g)) S crit := by
  induction n with
  | zero => intro S _ g crit; rfl
  | succ n ih =>
    intro S h g crit
    simp only [spEnsembleLoopG, Rng.blocks, runsOf, List.map_cons, spEnsembleLoop, realisationG_plain rfl h fuel ds]
    cases hr : realisation env .sp S ⟨choices (L * L) (G.answers (countdown (L * L)) g).1, ds, fuel⟩ with
    | error x => rfl
    | ok R => exact ih (h.after_realisation hr) _ _

theorem new_choices (hL : 0 < L) (seed : Option Int) (g : σ) : ∃ S,
    Perc.newG G env L seed g = .ok (S, (G.answers (countdown (L * L)) (G.seeded seed g)).2) ∧
    Perc.new env L (choices (L * L) (G.answers (countdown (L * L)) (G.seeded seed g)).1) = .ok S := by
  simp only [Perc.newG]
  rw [shuffleDraws_pos (Nat.mul_pos hL hL)]
  obtain ⟨rev, e, _⟩ := new_ok env hL (choices (L * L) (G.answers (countdown (L * L)) (G.seeded seed g)).1)
  exact ⟨_, by rw [e]; rfl, e⟩

/-- The state of the generator in which the object used by a run is constructed: after `random.seed(k)`, or, without a seed, the state at the
start. -/
theorem newForRun_choices (hL : 0 < L) (seed : Option Int) (g : σ) :
    ∃ S, Perc.newForRun G env L seed g = .ok (S, (G.answers (countdown (L * L)) (G.seeded seed g)).2) ∧
      Perc.new env L (choices (L * L) (G.answers (countdown (L * L)) (G.seeded seed g)).1) = .ok S := by
  obtain ⟨S0, e0, n0⟩ := new_choices (G := G) (env := env) hL none g
  cases seed with
  | none => exact ⟨S0, by simp only [Perc.newForRun, e0]; rfl, n0⟩
  | some k =>
    obtain ⟨S1, e1, n1⟩ := new_choices (G := G) (env := env) hL (some k) (G.answers (countdown (L * L)) (G.seeded none g)).2
    exact ⟨S1, by simp only [Perc.newForRun, e0, bind, Except.bind]; exact e1, n1⟩

/-- C72: the numbers that `n` realisations of L0 take from the generator: `n + 1` times the requests `L²`, `L²-1`, ..., `2`, first for the
construction and then for the `n` resets, starting from the state after `random.seed(k)` or, without a seed, from the state the generator is in.
The tables are those of the model when the answers are the choices of the shuffles. -/
theorem C72_ensemble (hv : v.plain = true) (hL : 0 < L) (pl : Bool) (fuel n : Nat) (ds : Nat → Draw) (seed : Option Int) (g : σ) :
    let g0 := match seed with | some k => G.seed k | none => g
    ∃ as bs, G.blocks (countdown (L * L)) (n + 1) g0 = as :: bs ∧
      runEnsembleG G env v pl fuel L n seed g = runEnsemble env v pl L (choices (L * L) as) (runsOf (L * L) fuel ds bs) := by
  intro g0
  have hg : g0 = G.seeded seed g := by cases seed <;> rfl
  rw [hg]
  refine ⟨_, _, rfl, ?_⟩
  obtain ⟨S, e, e'⟩ := newForRun_choices (G := G) (env := env) hL seed g
  simp only [runEnsembleG, runEnsemble, e, e', bind, Except.bind]
  rw [ensembleLoopG_plain hv pl fuel ds n (.new e')]
  have : (runsOf (L * L) fuel ds (G.blocks (countdown (L * L)) n (G.answers (countdown (L * L)) (G.seeded seed g)).2)).length = n := by
    rw [runsOf, List.length_map]
    generalize (G.answers (countdown (L * L)) (G.seeded seed g)).2 = g1
    clear e e'
    induction n generalizing g1 with
    | zero => rfl
    | succ n ih => simp only [Rng.blocks, List.length_cons, ih]
  rw [this]
  rfl

/-- C72: the same for the shortest-path runs. -/
theorem C72_sp_ensemble (hL : 0 < L) (fuel n : Nat) (ds : Nat → Draw) (seed : Option Int) (g : σ) :
    let g0 := match seed with | some k => G.seed k | none => g
    ∃ as bs, G.blocks (countdown (L * L)) (n + 1) g0 = as :: bs ∧
      spEnsembleG G env fuel L n seed g = spEnsemble env L (choices (L * L) as) (runsOf (L * L) fuel ds bs) := by
  intro g0
  have hg : g0 = G.seeded seed g := by cases seed <;> rfl
  rw [hg]
  refine ⟨_, _, rfl, ?_⟩
  obtain ⟨S, e, e'⟩ := newForRun_choices (G := G) (env := env) hL seed g
  simp only [spEnsembleG, spEnsemble, e, e', bind, Except.bind]
  rw [spEnsembleLoopG_plain fuel ds n (.new e')]

/-- A generator that answers with its own state, which counts the requests. -/
def countRng : Rng Nat := ⟨fun k => 100 * k.toNat, fun n g => (g % n, g + 1)⟩

/-- The requests and answers for two realisations on the lattice of side 2 after `random.seed(1)`. -/
example : countdown 4 = [4, 3, 2] ∧ countRng.blocks (countdown 4) 3 (countRng.seed 1) = [[0, 2, 0], [3, 2, 1], [2, 2, 0]] ∧
    (List.range 4).map (choices 4 [0, 2, 1]) = [0, 1, 2, 0] := by decide +kernel

theorem drawn_ext {p : Draw × Nat} {a b g : Nat} (h : (p.1.a, p.1.b, p.2) = (a, b, g)) : p = (⟨a, b⟩, g) := by
  obtain ⟨⟨x, y⟩, z⟩ := p
  simp only [Prod.mk.injEq] at h
  rw [h.1, h.2.1, h.2.2]

/-- A state of L1 with an occupied site among the candidates: one request if an empty candidate is drawn, two if the occupied one is. -/
example : ∃ S : Perc Unit, Reach demoEnv .l1 3 S ∧ S.drawG countRng .l1 0 = (⟨0, 0⟩, 1) ∧ S.drawG countRng .l1 3 = (⟨3, 0⟩, 5) := by
  obtain ⟨S, h, hp⟩ := checkOps_reach (env := demoEnv) (v := .l1) (L := 3) (ops := [.place ⟨3, 0⟩])
    (p := fun S => decide (((S.drawG countRng .l1 0).1.a, (S.drawG countRng .l1 0).1.b, (S.drawG countRng .l1 0).2) = (0, 0, 1) ∧
      ((S.drawG countRng .l1 3).1.a, (S.drawG countRng .l1 3).1.b, (S.drawG countRng .l1 3).2) = (3, 0, 5))) (by decide +kernel)
  obtain ⟨h1, h2⟩ := of_decide_eq_true hp
  exact ⟨S, h, drawn_ext h1, drawn_ext h2⟩

end SqPerc
