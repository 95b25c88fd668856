import Verif.Model.Ensemble
import Verif.Props.L1L2
import Verif.Props.ShortestPath
/-
Properties C42 and C43: the ensemble drivers.
-/
namespace SqPerc

variable {α : Type} {L : Nat} {env : Env α} {v : Variant} {S S' : Perc α}

/-! ### One realisation -/

theorem initBudget_lt {fuel : Nat} (hf : 5 * (L * L) < fuel) (v : Variant) : initBudget L v < fuel := by
  have hf' : (5 * (L * L) : Int) < fuel := by exact_mod_cast hf
  have h0 : (0 : Int) ≤ L * L := by exact_mod_cast Nat.zero_le _
  cases v <;> simp only [initBudget] <;> omega

/-- The states after each of the realisations of an ensemble: `Realised S rs Ss` when performing `reset(); run_once()` with the draws of
`rs` one after the other, starting from `S`, gives the states `Ss`. -/
inductive Realised (env : Env α) (v : Variant) : Perc α → List RunDraws → List (Perc α) → Prop
  | nil {S : Perc α} : Realised env v S [] []
  | cons {S S1 S2 : Perc α} {r : RunDraws} {rs : List RunDraws} {Ss : List (Perc α)} : S.reset env v r.shuffle = .ok S1 →
      S1.runOnceV env v r.fuel r.steps = .ok S2 → Realised env v S2 rs Ss → Realised env v S (r :: rs) (S2 :: Ss)

/-- A realisation in the classes L0, L1 and L2: it places all sites, in some order, and collects one row per site. -/
theorem Clean.realisation (hv : v ≠ .sp) {b : Bool} (h : Clean env v L b S) {r : RunDraws} (hf : 5 * (L * L) < r.fuel) :
    ∃ S1 S2 seq es, S.reset env v r.shuffle = .ok S1 ∧ S1.runOnceV env v r.fuel r.steps = .ok S2 ∧ SqPerc.realisation env v S r = .ok S2 ∧
      Clean env v L false S2 ∧ Trace env v L S2 seq ∧ seq.Perm (List.range (L * L)) ∧ es.length = L * L ∧
      (∀ P : α → List Nat → Prop, (∀ T q, Trace env v L T q → P T.entropy q) → List.Forall₂ P es (stages [] seq)) ∧
      S2.getDataArray = .ok (List.zipWith (fun e q => [prob env L q, e, ordL env L q, ordW env L q]) es (stages [] seq)) := by
  obtain ⟨S1, e1, _⟩ := (h.reach hv).1.live.reset r.shuffle
  have h1 := h.reset e1
  obtain ⟨S2, seq, e2, T, hp, _, _, e3, ⟨es, e4, e4l, e4f⟩, e5, e6⟩ := ((h1.reach hv).2 rfl).run (fuel := r.fuel) (ds := r.steps) (initBudget_lt hf v)
  have e2' : S1.runOnceV env v r.fuel r.steps = .ok S2 := by
    cases v with
    | sp => exact absurd rfl hv
    | l0 => exact e2
    | l1 => exact e2
    | l2 => exact e2
  have D := h1.data hv
  obtain ⟨d1, d2, d3⟩ := D.lists rfl
  have hl : seq.length = L * L := by rw [hp.length_eq, List.length_range]
  have hs : (stages [] seq).length = L * L := by rw [stages_length, hl]
  have hprob : (stages [] seq).map (prob env L) = fullProbs env L := by
    rw [stages_prob, hl]
    unfold fullProbs
    apply List.map_congr_left
    intro k _; simp
  have e3' : S2.occProbList = (stages [] seq).map (prob env L) := by
    rw [hprob, e3]
    rcases D.probs with ⟨h1, h2⟩ | ⟨h1, h2⟩
    · rw [if_pos h1, h2]; rfl
    · rw [if_neg (by rw [h1]; simp), h2]
  rw [d1, List.nil_append] at e4
  rw [d2, List.nil_append] at e5
  rw [d3, List.nil_append] at e6
  refine ⟨S1, S2, seq, es, e1, e2', ?_, h1.run e2, T, hp, e4l, e4f, ?_⟩
  · simp only [SqPerc.realisation]; rw [e1]; exact e2'
  · simp only [Perc.getDataArray, e3', e4, e5, e6]
    rw [if_pos (by simp [e4l, hs])]
    congr 1
    have : es.length = (stages [] seq).length := by rw [e4l, hs]
    clear e4f e4l e4 hs hprob e3' e5 e6
    generalize stages [] seq = l at this
    induction l generalizing es with
    | nil => simp
    | cons q l ih =>
      cases es with
      | nil => simp at this
      | cons e es => simp only [List.map_cons, List.zip_cons_cons, List.zipWith_cons_cons]; rw [ih]; simpa using this

/-! ### Sums of tables -/

/-- The row with entries `g 0, …, g 3`. -/
def rowOf (g : Nat → α) : List α := [g 0, g 1, g 2, g 3]

/-- The table with `N` rows and entries `F k c`. -/
def tableOf (N : Nat) (F : Nat → Nat → α) : List (List α) := (List.range N).map fun k => rowOf (F k)

/-- Summation from left to right. -/
def sumFrom (env : Env α) (x : α) (xs : List α) : α := xs.foldl env.ar.add x

theorem addArrays_table (N : Nat) (F G : Nat → Nat → α) :
    addArrays env (tableOf N F) (tableOf N G) = .ok (tableOf N fun k c => env.ar.add (F k c) (G k c)) := by
  rw [addArrays, if_pos (by simp [tableOf])]
  congr 1
  unfold tableOf
  rw [List.zipWith_map, List.zipWith_self]
  rfl

theorem divArray_table (N n : Nat) (F : Nat → Nat → α) :
    divArray env (tableOf N F) n = tableOf N fun k c => env.ar.div (F k c) (env.ar.ofNat n) := by
  unfold divArray tableOf
  rw [List.map_map]
  rfl

/-- A finished realisation: the object `S`, the placement order `q` and the data array, with entries `F`. -/
structure Finished (env : Env α) (v : Variant) (L : Nat) (S : Perc α) (q : List Nat) (F : Nat → Nat → α) : Prop where
  trace : Trace env v L S q
  perm : q.Perm (List.range (L * L))
  array : S.getDataArray = .ok (tableOf (L * L) F)
  prob : ∀ k < L * L, F k 0 = SqPerc.prob env L (q.take (k + 1))
  entropyRel : ∀ P : α → List Nat → Prop, (∀ T q, Trace env v L T q → P T.entropy q) → ∀ k < L * L, P (F k 1) (q.take (k + 1))
  largest : ∀ k < L * L, F k 2 = ordL env L (q.take (k + 1))
  wrapping : ∀ k < L * L, F k 3 = ordW env L (q.take (k + 1))

theorem Finished.entropy {q : List Nat} {F : Nat → Nat → α} (h : Finished env v L S q F) (f : List Nat → α)
    (hf : ∀ T q, Trace env v L T q → T.entropy = f q) : ∀ k < L * L, F k 1 = f (q.take (k + 1)) :=
  h.entropyRel (fun x q => x = f q) hf

/-- The rows collected in a run as a table. -/
theorem rows_table (es : List α) (ss : List (List Nat)) {N : Nat} (h1 : es.length = N) (h2 : ss.length = N) :
    ∃ F : Nat → Nat → α, List.zipWith (fun e q => [prob env L q, e, ordL env L q, ordW env L q]) es ss = tableOf N F ∧
      ∀ k q e, ss[k]? = some q → es[k]? = some e → F k 0 = prob env L q ∧ F k 1 = e ∧ F k 2 = ordL env L q ∧ F k 3 = ordW env L q := by
  refine ⟨fun k c => match ss[k]?, es[k]? with
    | some q, some e => ([prob env L q, e, ordL env L q, ordW env L q][c]?).getD e
    | _, _ => env.ar.ofNat 0, ?_, ?_⟩
  · apply List.ext_getElem?
    intro k
    rw [tableOf, List.getElem?_map, List.getElem?_zipWith]
    by_cases hk : k < N
    · rw [List.getElem?_range hk]
      simp only [Option.map_some, rowOf]
      rw [List.getElem?_eq_getElem (l := es) (by omega), List.getElem?_eq_getElem (l := ss) (by omega)]
      rfl
    · rw [List.getElem?_eq_none (l := es) (by omega), List.getElem?_eq_none (l := List.range N) (by simp; omega)]
      rfl
  · intro k q e hq he
    simp only [hq, he]
    exact ⟨rfl, rfl, rfl, rfl⟩

/-- A realisation is finished by `reset(); run_once()`. -/
theorem Clean.finished (hv : v ≠ .sp) {b : Bool} (h : Clean env v L b S) {r : RunDraws} (hf : 5 * (L * L) < r.fuel) :
    ∃ S1 S2 q F, S.reset env v r.shuffle = .ok S1 ∧ S1.runOnceV env v r.fuel r.steps = .ok S2 ∧ SqPerc.realisation env v S r = .ok S2 ∧
      Clean env v L false S2 ∧ Finished env v L S2 q F := by
  obtain ⟨S1, S2, seq, es, e1, e2, e3, hc, T, hp, hl, hent, hd⟩ := h.realisation hv hf
  have hs : (stages [] seq).length = L * L := by rw [stages_length, hp.length_eq, List.length_range]
  obtain ⟨F, hF, hv⟩ := rows_table (env := env) (L := L) es (stages [] seq) hl hs
  have hst : ∀ k < L * L, (stages [] seq)[k]? = some (seq.take (k + 1)) := by
    intro k hk
    rw [stages_getElem?, if_pos (by rw [← stages_length [] seq, hs]; exact hk)]
    rfl
  have hes : ∀ k < L * L, ∃ e, es[k]? = some e := fun k hk => ⟨_, List.getElem?_eq_getElem (by omega)⟩
  refine ⟨S1, S2, seq, F, e1, e2, e3, hc, T, hp, by rw [hd, hF], ?_, ?_, ?_, ?_⟩
  · intro k hk; obtain ⟨e, he⟩ := hes k hk; exact (hv k _ e (hst k hk) he).1
  · intro P hP k hk
    obtain ⟨e, he⟩ := hes k hk
    rw [(hv k _ e (hst k hk) he).2.1]
    obtain ⟨h1, h2⟩ := List.getElem?_eq_some_iff.1 he
    obtain ⟨h3, h4⟩ := List.getElem?_eq_some_iff.1 (hst k hk)
    have := (hent P hP).get h1 h3
    rwa [List.get_eq_getElem, List.get_eq_getElem, h2, h4] at this
  · intro k hk; obtain ⟨e, he⟩ := hes k hk; exact (hv k _ e (hst k hk) he).2.2.1
  · intro k hk; obtain ⟨e, he⟩ := hes k hk; exact (hv k _ e (hst k hk) he).2.2.2

theorem pyGetI_last {β : Type} {l : List β} (h : l ≠ []) : ∃ x, pyGetI l (-1) = .ok x := by
  have hl : 0 < l.length := List.length_pos_iff.2 h
  have hi : ((l.length : Int) + -1).toNat < l.length := by omega
  refine ⟨l[((l.length : Int) + -1).toNat]'hi, ?_⟩
  rw [pyGetI, if_neg (by omega), if_pos (by omega), pyGet, List.getElem?_eq_getElem hi]

/-- The loop of the ensemble drivers after the first realisation. -/
theorem ensembleLoop_some (hv : v ≠ .sp) (hL : 0 < L) (pl : Bool) (rs : List RunDraws) (hf : ∀ r ∈ rs, 5 * (L * L) < r.fuel) :
    ∀ {S : Perc α} (F0 : Nat → Nat → α) (crit : List (CritRow α)) {b : Bool}, Clean env v L b S →
    ∃ xs : List (Perc α × List Nat × (Nat → Nat → α)), Realised env v S rs (xs.map (·.1)) ∧ (∀ x ∈ xs, Finished env v L x.1 x.2.1 x.2.2) ∧
      (∃ S2, ensembleLoop env v pl rs S (some (tableOf (L * L) F0)) crit =
        .ok (S2, some (tableOf (L * L) fun k c => sumFrom env (F0 k c) (xs.map fun x => x.2.2 k c)), crit ++ xs.map fun x => critRow env x.1)) ∧
      ensembleThreadsLoop env v rs S (some (tableOf (L * L) F0)) =
        .ok (some (tableOf (L * L) fun k c => sumFrom env (F0 k c) (xs.map fun x => x.2.2 k c))) := by
  induction rs with
  | nil =>
    intro S F0 crit b _
    exact ⟨[], .nil, fun x hx => by simp at hx, ⟨S, by simp [ensembleLoop, sumFrom]⟩, by simp [ensembleThreadsLoop, sumFrom]⟩
  | cons r rs ih =>
    intro S F0 crit b hc
    obtain ⟨S1, S2, q, F, e1, e2, e3, hc2, hfin⟩ := hc.finished hv (hf r (by simp))
    obtain ⟨xs, h1, h2, ⟨S3, h3⟩, h4⟩ := ih (fun r hr => hf r (by simp [hr])) (fun k c => env.ar.add (F0 k c) (F k c))
      (crit ++ [critRow env S2]) hc2
    have hne : tableOf (L * L) F ≠ [] := by
      have : 0 < L * L := Nat.mul_pos hL hL
      intro h
      have := congrArg List.length h
      simp [tableOf] at this
      omega
    obtain ⟨last, hlast⟩ := pyGetI_last hne
    refine ⟨(S2, q, F) :: xs, .cons e1 e2 h1, ?_, ⟨S3, ?_⟩, ?_⟩
    · intro x hx
      rcases List.mem_cons.1 hx with rfl | hx
      · exact hfin
      · exact h2 x hx
    · simp only [ensembleLoop, e3, hfin.array, hlast, bind, Except.bind]
      have : addArrays env (tableOf (L * L) F0) (tableOf (L * L) F) = _ := addArrays_table (L * L) F0 F
      cases pl <;> simp only [this, h3, if_true, if_false, Bool.false_eq_true] <;> simp [sumFrom]
    · simp only [ensembleThreadsLoop, e3, hfin.array, bind, Except.bind]
      have : addArrays env (tableOf (L * L) F0) (tableOf (L * L) F) = _ := addArrays_table (L * L) F0 F
      simp only [this, h4]
      simp [sumFrom]

theorem Realised.length {rs : List RunDraws} {Ss : List (Perc α)} (h : Realised env v S rs Ss) : Ss.length = rs.length := by
  induction h with
  | nil => rfl
  | cons _ _ _ ih => simp [ih]

/-- The ensemble drivers. -/
theorem ensemble_tables (hv : v ≠ .sp) (hL : 0 < L) (pl : Bool) (ctor : Nat → Nat) {rs : List RunDraws} (hne : rs ≠ [])
    (hf : ∀ r ∈ rs, 5 * (L * L) < r.fuel) :
    ∃ (S0 : Perc α) (x0 : Perc α × List Nat × (Nat → Nat → α)) (xs : List (Perc α × List Nat × (Nat → Nat → α))),
      Perc.new env L ctor = .ok S0 ∧ Realised env v S0 rs ((x0 :: xs).map (·.1)) ∧
      (∀ x ∈ x0 :: xs, Finished env v L x.1 x.2.1 x.2.2) ∧
      runEnsemble env v pl L ctor rs =
        .ok (tableOf (L * L) fun k c => env.ar.div (sumFrom env (x0.2.2 k c) (xs.map fun x => x.2.2 k c)) (env.ar.ofNat rs.length),
          (x0 :: xs).map fun x => critRow env x.1) ∧
      runEnsembleThreads env v L ctor rs =
        .ok (tableOf (L * L) fun k c => env.ar.div (sumFrom env (x0.2.2 k c) (xs.map fun x => x.2.2 k c)) (env.ar.ofNat rs.length)) := by
  obtain ⟨S0, e0, _⟩ := fresh_exists env v hL ctor
  cases rs with
  | nil => exact absurd rfl hne
  | cons r rs =>
    have hc : Clean env v L true S0 := .new e0
    obtain ⟨S1, S2, q, F, e1, e2, e3, hc2, hfin⟩ := hc.finished hv (hf r (by simp))
    obtain ⟨xs, h1, h2, ⟨S3, h3⟩, h4⟩ := ensembleLoop_some hv hL pl rs (fun r hr => hf r (by simp [hr])) F [critRow env S2] hc2
    have hne : tableOf (L * L) F ≠ [] := by
      have : 0 < L * L := Nat.mul_pos hL hL
      intro h
      have := congrArg List.length h
      simp [tableOf] at this
      omega
    obtain ⟨last, hlast⟩ := pyGetI_last hne
    refine ⟨S0, (S2, q, F), xs, e0, .cons e1 e2 h1, ?_, ?_, ?_⟩
    · intro x hx
      rcases List.mem_cons.1 hx with rfl | hx
      · exact hfin
      · exact h2 x hx
    · simp only [runEnsemble, ensembleLoop, e0, e3, hfin.array, hlast, bind, Except.bind, List.nil_append]
      cases pl <;> simp only [h3, if_true, if_false, Bool.false_eq_true] <;> simp [divArray_table, pure, Except.pure]
    · simp only [runEnsembleThreads, ensembleThreadsLoop, e0, e3, hfin.array, bind, Except.bind]
      simp only [h4]
      simp [divArray_table, pure, Except.pure]

/-! ### C42 -/

/-- C42, any arithmetic: `run_ensemble_entropy_order`, `_threads` and `_threads_v2` with `E ≥ 1` realisations of L0, L1 or L2 perform
exactly `E` times `reset(); run_once()` on one object; each of these produces a data array with `L²` rows and four columns, and the
table written holds in each place the sum over the realisations (from the first to the last) divided by `E`.  The critical values written
are those of the realisations, in order. -/
theorem C42_entrywise_mean (hv : v ≠ .sp) (hL : 0 < L) (pl : Bool) (ctor : Nat → Nat) {rs : List RunDraws} (hne : rs ≠ [])
    (hf : ∀ r ∈ rs, 5 * (L * L) < r.fuel) :
    ∃ (S0 S1 : Perc α) (Ss : List (Perc α)) (F : Perc α → Nat → Nat → α) (data : List (List α)), Perc.new env L ctor = .ok S0 ∧
      Realised env v S0 rs (S1 :: Ss) ∧ (S1 :: Ss).length = rs.length ∧
      (∀ S ∈ S1 :: Ss, ∃ A, S.getDataArray = .ok A ∧ A.length = L * L ∧ ∀ k < L * L, A[k]? = some [F S k 0, F S k 1, F S k 2, F S k 3]) ∧
      runEnsemble env v pl L ctor rs = .ok (data, (S1 :: Ss).map fun S => ⟨S.getPc env, S.getSiteCountPc, S.getBondCountPc⟩) ∧
      runEnsembleThreads env v L ctor rs = .ok data ∧ data.length = L * L ∧
      ∀ k < L * L, ∃ row, data[k]? = some row ∧ row.length = 4 ∧
        ∀ c < 4, row[c]? = some (env.ar.div (Ss.foldl (fun a S => env.ar.add a (F S k c)) (F S1 k c)) (env.ar.ofNat rs.length)) := by
  obtain ⟨S0, x0, xs, e0, hR, hfin, h1, h2⟩ := ensemble_tables (env := env) hv hL pl ctor hne hf
  -- the entries are determined by the object
  let F : Perc α → Nat → Nat → α := fun S k c => match S.getDataArray with
    | .ok A => ((A[k]?.getD [])[c]?).getD (env.ar.ofNat 0)
    | .error _ => env.ar.ofNat 0
  have hF : ∀ x ∈ x0 :: xs, ∀ k < L * L, ∀ c < 4, F x.1 k c = x.2.2 k c := by
    intro x hx k hk c hc
    show (match x.1.getDataArray with
      | .ok A => ((A[k]?.getD [])[c]?).getD (env.ar.ofNat 0)
      | .error _ => env.ar.ofNat 0) = _
    rw [(hfin x hx).array]
    simp only [tableOf, List.getElem?_map, List.getElem?_range hk, Option.map_some, Option.getD_some, rowOf]
    match c, hc with
    | 0, _ => rfl
    | 1, _ => rfl
    | 2, _ => rfl
    | 3, _ => rfl
  have hR' : Realised env v S0 rs (x0.1 :: xs.map (fun x => x.1)) := hR
  refine ⟨S0, x0.1, xs.map (fun x => x.1), F, _, e0, hR', hR'.length, ?_, by rw [h1]; simp [critRow], h2, by simp [tableOf], ?_⟩
  · intro S hS
    have hS' : S ∈ (x0 :: xs).map (·.1) := hS
    obtain ⟨x, hx, rfl⟩ := List.mem_map.1 hS'
    refine ⟨_, (hfin x hx).array, by simp [tableOf], fun k hk => ?_⟩
    rw [hF x hx k hk 0 (by omega), hF x hx k hk 1 (by omega), hF x hx k hk 2 (by omega), hF x hx k hk 3 (by omega)]
    simp only [tableOf, List.getElem?_map, List.getElem?_range hk, Option.map_some, rowOf]
  · intro k hk
    simp only [tableOf, List.getElem?_map, List.getElem?_range hk, Option.map_some]
    refine ⟨_, rfl, rfl, fun c hc => ?_⟩
    have : (xs.map (·.1)).foldl (fun a S => env.ar.add a (F S k c)) (F x0.1 k c) = sumFrom env (x0.2.2 k c) (xs.map fun x => x.2.2 k c) := by
      rw [hF x0 (by simp) k hk c hc, sumFrom, List.foldl_map, List.foldl_map]
      apply List.foldl_ext
      intro a x hx
      rw [hF x (by simp [hx]) k hk c hc]
    rw [this]
    match c, hc with
    | 0, _ => rfl
    | 1, _ => rfl
    | 2, _ => rfl
    | 3, _ => rfl

/-- Arithmetic mean of a quantity over placement orders. -/
noncomputable def meanOver (qs : List (List Nat)) (f : List Nat → ℝ) : ℝ := (qs.map f).sum / qs.length

/-- Critical values of a placement order: number of placed sites, sites and bonds of the wrapping cluster at the first wrapping
configuration; all 0 for `L ≤ 2`. -/
def CritOf (L : Nat) (q : List Nat) (r : CritRow ℝ) : Prop :=
  if 3 ≤ L then ∃ pre k post, q = pre ++ k :: post ∧ ¬ Wraps L (· ∈ pre) ∧ Wraps L (· ∈ pre ++ [k]) ∧
    r.pc = ((pre.length + 1 : Nat) : ℝ) / (L * L : Nat) ∧ r.sites = (siteComp L (· ∈ pre ++ [k]) k).card ∧
    r.bonds = (bondComp L (· ∈ pre ++ [k]) (bondAt L k .right)).card
  else r.pc = 0 ∧ r.sites = 0 ∧ r.bonds = 0

theorem sumFrom_real {so : SetOrder} (x : ℝ) (xs : List ℝ) : sumFrom (realEnv so) x xs = (x :: xs).sum := by
  rw [List.sum_cons]
  induction xs generalizing x with
  | nil => simp [sumFrom]
  | cons y ys ih =>
    show sumFrom (realEnv so) (x + y) ys = _
    rw [ih, List.sum_cons, add_assoc]

theorem ordW_real {so : SetOrder} (q : List Nat) : ordW (realEnv so) L q = (seqWrapping L q : ℝ) / (2 * (L * L) : Nat) := by
  unfold ordW
  split
  · rfl
  · next h =>
    have h0 : seqWrapping L q = 0 := by
      unfold seqWrapping
      split
      · rfl
      · rw [firstWrap_none (by rw [List.nil_append]; exact fun hw => h ⟨by omega, hw⟩)]
    rw [h0]
    show ((0 : Nat) : ℝ) = _
    simp

/-- C42 in exact arithmetic: the tables written are determined by the `E` placement orders `qs` of the realisations (permutations of all
sites): row `k` holds `(k + 1) / L²` and the means over `qs` of the entropy, of the largest-cluster and of the wrapping-cluster order
parameter after `k + 1` placements, and there are `E` rows of critical values, each that of its placement order. -/
theorem C42_mean {so : SetOrder} (hv : v ≠ .sp) (hL : 0 < L) (pl : Bool) (ctor : Nat → Nat) {rs : List RunDraws} (hne : rs ≠ [])
    (hf : ∀ r ∈ rs, 5 * (L * L) < r.fuel) :
    ∃ (qs : List (List Nat)) (crit : List (CritRow ℝ)), qs.length = rs.length ∧ (∀ q ∈ qs, q.Perm (List.range (L * L))) ∧
      runEnsemble (realEnv so) v pl L ctor rs = .ok ((List.range (L * L)).map (fun k => [((k + 1 : Nat) : ℝ) / (L * L : Nat),
          meanOver qs fun q => shannon L (· ∈ q.take (k + 1)),
          meanOver qs fun q => (seqLargest L (q.take (k + 1)) : ℝ) / (2 * (L * L) : Nat),
          meanOver qs fun q => (seqWrapping L (q.take (k + 1)) : ℝ) / (2 * (L * L) : Nat)]), crit) ∧
      List.Forall₂ (CritOf L) qs crit := by
  obtain ⟨S0, x0, xs, e0, hR, hfin, h1, h2⟩ := ensemble_tables (env := realEnv so) hv hL pl ctor hne hf
  have hlen : (x0 :: xs).length = rs.length := by rw [← hR.length, List.length_map]
  refine ⟨(x0 :: xs).map (·.2.1), (x0 :: xs).map (fun x => critRow (realEnv so) x.1), by rw [List.length_map, hlen], ?_, ?_, ?_⟩
  · intro q hq
    obtain ⟨x, hx, rfl⟩ := List.mem_map.1 hq
    exact (hfin x hx).perm
  · rw [h1]
    congr 2
    unfold tableOf
    apply List.map_congr_left
    intro k hk
    rw [List.mem_range] at hk
    have hn : (0 : ℝ) < (x0 :: xs).length := by exact_mod_cast Nat.succ_pos _
    have key : ∀ (c : Nat) (f : List Nat → ℝ), (∀ x ∈ x0 :: xs, x.2.2 k c = f x.2.1) →
        sumFrom (realEnv so) (x0.2.2 k c) (xs.map fun x => x.2.2 k c) / (rs.length : ℝ) = meanOver ((x0 :: xs).map (·.2.1)) f := by
      intro c f hcf
      rw [sumFrom_real, ← hlen, meanOver, List.length_map, List.map_map]
      congr 2
      show (x0 :: xs).map (fun x => x.2.2 k c) = _
      exact List.map_congr_left hcf
    unfold rowOf
    show [_ / (rs.length : ℝ), _ / (rs.length : ℝ), _ / (rs.length : ℝ), _ / (rs.length : ℝ)] = _
    rw [key 0 (fun _ => ((k + 1 : Nat) : ℝ) / (L * L : Nat)), key 1 (fun q => shannon L (· ∈ q.take (k + 1))),
      key 2 (fun q => (seqLargest L (q.take (k + 1)) : ℝ) / (2 * (L * L) : Nat)),
      key 3 (fun q => (seqWrapping L (q.take (k + 1)) : ℝ) / (2 * (L * L) : Nat))]
    · congr 1
      simp only [meanOver, List.map_const', List.sum_replicate, nsmul_eq_mul, List.length_map]
      field_simp
    · intro x hx
      exact ((hfin x hx).wrapping k hk).trans (ordW_real _)
    · intro x hx
      exact (hfin x hx).largest k hk
    · intro x hx
      exact (hfin x hx).entropy _ (fun T q h => h.entropy) k hk
    · intro x hx
      rw [(hfin x hx).prob k hk]
      show ((x.2.1.take (k + 1)).length : ℝ) / (L * L : Nat) = _
      rw [List.length_take, (hfin x hx).perm.length_eq, List.length_range, Nat.min_eq_left hk]
  · have hall : ∀ xs : List (Perc ℝ × List Nat × (Nat → Nat → ℝ)), (∀ x ∈ xs, Finished (realEnv so) v L x.1 x.2.1 x.2.2) →
        List.Forall₂ (CritOf L) (xs.map (·.2.1)) (xs.map fun x => critRow (realEnv so) x.1) := by
      intro xs hx
      rw [List.forall₂_map_left_iff, List.forall₂_map_right_iff, List.forall₂_same]
      intro x hx'
      have T := (hx x hx').trace
      unfold CritOf
      split
      · next hL3 =>
        have hw : Wraps L (· ∈ x.2.1) := full_wraps (by omega) fun s hs => (hx x hx').perm.mem_iff.2 (List.mem_range.2 hs)
        obtain ⟨pre, k, post, g1, g2, g3, g4, g5, g6⟩ := (C21_critical_values hL3 T).1 hw
        exact ⟨pre, k, post, g1, g2, ⟨k, g3⟩, g4, g5, g6 _⟩
      · next hL3 =>
        obtain ⟨_, A, M, hA, _⟩ := T.sim
        have hf := (hA.wrap.flat (by omega)).2
        obtain ⟨_, o2, o3, o4⟩ := hA.wrap.off hf
        refine ⟨?_, ?_, ?_⟩
        · show x.1.getPc (realEnv so) = 0
          rw [Perc.getPc, M.aw, hf]; exact Nat.cast_zero
        · show x.1.getSiteCountPc = 0
          rw [Perc.getSiteCountPc, M.pcs, o3]
        · show x.1.getBondCountPc = 0
          rw [Perc.getBondCountPc, M.pcb, o2]
    exact hall _ hfin

/-- The hypotheses hold for three realisations of L1 on the `4 × 4` lattice with any draws. -/
example (ctor : Nat → Nat) (sh : Nat → Nat) (ds : Nat → Draw) : ∃ out, runEnsemble (realEnv demoSet) .l1 true 4 ctor
    (List.replicate 3 ⟨sh, ds, 100⟩) = .ok out := by
  obtain ⟨qs, crit, _, _, h, _⟩ := C42_mean (so := demoSet) (v := .l1) (L := 4) (by decide) (by decide) true ctor
    (rs := List.replicate 3 ⟨sh, ds, 100⟩) (by simp [List.replicate]) (by intro r hr; rw [List.eq_of_mem_replicate hr]; show 5 * (4 * 4) < 100; omega)
  exact ⟨_, h⟩

/-- C42: with ensemble size 0 the drivers raise (`None /= 0` is a TypeError) and write nothing. -/
theorem C42_empty_raises (hL : 0 < L) (pl : Bool) (ctor : Nat → Nat) :
    runEnsemble env v pl L ctor [] = .error .typeError ∧ runEnsembleThreads env v L ctor [] = .error .typeError := by
  obtain ⟨S0, e0, _⟩ := fresh_exists env v hL ctor
  simp only [runEnsemble, runEnsembleThreads, e0, bind, Except.bind, ensembleLoop, ensembleThreadsLoop]
  exact ⟨trivial, trivial⟩

/-- C42: `run_simulation_threads_v4(L, En, T)` (and `_v3`, and the shortest path driver) with `T ≥ 1` starts `T` processes; together they
perform `T * (En // T)` realisations: never more than `En`, fewer than `T` short, and exactly `En` if and only if `T` divides `En`. -/
theorem C42_threads (En : Nat) {T : Nat} (hT : 0 < T) : ∃ sizes, threadSizes En T = .ok sizes ∧ sizes.length = T ∧
    sizes.sum = T * (En / T) ∧ sizes.sum ≤ En ∧ En < sizes.sum + T ∧ (sizes.sum = En ↔ T ∣ En) := by
  have hs : ((List.range T).map fun _ => En / T).sum = T * (En / T) := by simp
  refine ⟨_, by rw [threadSizes, if_neg (by omega)], by simp, hs, ?_, ?_, ?_⟩
  · rw [hs]; exact Nat.mul_div_le En T
  · rw [hs]; have := Nat.lt_mul_div_succ En hT; rw [Nat.mul_add] at this; omega
  · rw [hs]
    exact ⟨fun h => ⟨_, h.symm⟩, fun h => Nat.mul_div_cancel' h⟩

/-- C42: with no worker the division by the number of workers raises ZeroDivisionError. -/
theorem C42_no_threads (En : Nat) : threadSizes En 0 = .error .zeroDivisionError := rfl

/-- C42: with more workers than realisations every worker gets an empty ensemble, so every one of them raises and nothing is written. -/
theorem C42_idle_threads {En T : Nat} (h : En < T) (hL : 0 < L) : ∃ sizes, threadSizes En T = .ok sizes ∧
    ∀ n ∈ sizes, ∀ ctor rs, List.length rs = n → runEnsemble env v false L ctor rs = .error .typeError := by
  refine ⟨_, by rw [threadSizes, if_neg (by omega)], ?_⟩
  intro n hn ctor rs hrs
  obtain ⟨_, _, rfl⟩ := List.mem_map.1 hn
  rw [Nat.div_eq_of_lt h, List.length_eq_zero_iff] at hrs
  rw [hrs]
  exact (C42_empty_raises hL false ctor).1

example : threadSizes 1000 8 = .ok (List.replicate 8 125) ∧ threadSizes 10 4 = .ok [2, 2, 2, 2] := by decide

/-- The loop of the shortest path driver. -/
theorem spEnsembleLoop_ok {so : SetOrder} (hL : 3 ≤ L) (rs : List RunDraws) (hf : ∀ r ∈ rs, L * L < r.fuel) :
    ∀ {S : Perc ℝ} (crit : List (ℝ × ℝ)), DefReach (realEnv so) .sp L S →
    ∃ Ss, Realised (realEnv so) .sp S rs Ss ∧
      spEnsembleLoop (realEnv so) rs S crit = .ok (crit ++ Ss.map fun S => (S.getPc (realEnv so), S.shortestP)) ∧
      ∀ S ∈ Ss, 0 < S.getPc (realEnv so) ∧ S.getPc (realEnv so) ≤ S.shortestP ∧ S.shortestP ≤ 1 := by
  induction rs with
  | nil => intro S crit _; exact ⟨[], .nil, by simp [spEnsembleLoop], by simp⟩
  | cons r rs ih =>
    intro S crit hS
    obtain ⟨S1, e1, _⟩ := hS.live.reset r.shuffle
    have F : Fresh (realEnv so) .sp L S1 := .reset hS e1
    obtain ⟨S2, e2, h2⟩ := C41_bounds hL F (hf r (by simp))
    have e2' : S1.runOnceV (realEnv so) .sp r.fuel r.steps = .ok S2 := e2
    have D2 : DefReach (realEnv so) .sp L S2 := .step (.runOnce r.fuel r.steps) rfl F.defReach e2'
    obtain ⟨Ss, h3, h4, h5⟩ := ih (fun r hr => hf r (by simp [hr])) (crit ++ [(S2.getPc (realEnv so), S2.shortestP)]) D2
    refine ⟨S2 :: Ss, .cons e1 e2' h3, ?_, ?_⟩
    · have e3 : realisation (realEnv so) .sp S r = .ok S2 := by
        simp only [realisation]; rw [e1]; exact e2'
      simp only [spEnsembleLoop]
      rw [e3]
      show spEnsembleLoop (realEnv so) rs S2 _ = _
      rw [h4]; simp
    · intro T hT
      rcases List.mem_cons.1 hT with rfl | hT
      · exact h2
      · exact h5 T hT

/-- C42: the shortest path driver with `E` realisations (`L ≥ 3`) performs `E` times `reset(); run_once()` and writes the `E` pairs
`(get_pc(), get_shortest_path_p())`, each with `0 < pc ≤ p* ≤ 1`. -/
theorem C42_shortest_path {so : SetOrder} (hL : 3 ≤ L) (ctor : Nat → Nat) {rs : List RunDraws} (hf : ∀ r ∈ rs, L * L < r.fuel) :
    ∃ S0 Ss rows, Perc.new (realEnv so) L ctor = .ok S0 ∧ Realised (realEnv so) .sp S0 rs Ss ∧
      spEnsemble (realEnv so) L ctor rs = .ok rows ∧ rows = Ss.map (fun S => (S.getPc (realEnv so), S.shortestP)) ∧ rows.length = rs.length ∧
      ∀ r ∈ rows, 0 < r.1 ∧ r.1 ≤ r.2 ∧ r.2 ≤ 1 := by
  obtain ⟨S0, e0, F⟩ := fresh_exists (realEnv so) .sp (L := L) (by omega) ctor
  obtain ⟨Ss, h1, h2, h3⟩ := spEnsembleLoop_ok hL rs hf [] F.defReach
  refine ⟨S0, Ss, _, e0, h1, ?_, rfl, by rw [List.length_map, h1.length], ?_⟩
  · simp only [spEnsemble]
    rw [e0]
    exact h2
  · intro r hr
    obtain ⟨S, hS, rfl⟩ := List.mem_map.1 hr
    exact h3 S hS

/-! ### C43 -/

/-- The quantities that are written. -/
inductive Quantity | occupation | entropy | wrapping | largest
  deriving DecidableEq

/-- How the headers describe a quantity. -/
def Quantity.text : Quantity → String
  | .occupation => "occupation probability"
  | .entropy => "entropy"
  | .wrapping => "order parameter by wrapping cluster"
  | .largest => "order parameter by largest cluster"

/-- The value of a quantity for the configuration reached by placing the sites of `q`. -/
noncomputable def Quantity.value (L : Nat) (q : List Nat) : Quantity → ℝ
  | .occupation => (q.length : ℝ) / (L * L : Nat)
  | .entropy => shannon L (· ∈ q)
  | .wrapping => (seqWrapping L q : ℝ) / (2 * (L * L) : Nat)
  | .largest => (seqLargest L q : ℝ) / (2 * (L * L) : Nat)

/-- A header says that column `c` holds the quantity `x`. -/
def Says (columns desc : List String) (c : Nat) (x : Quantity) : Prop := ∃ name, columns[c]? = some name ∧ (name ++ "=" ++ x.text) ∈ desc

instance (columns desc : List String) (c : Nat) (x : Quantity) : Decidable (Says columns desc c x) :=
  match h : columns[c]? with
  | none => isFalse fun ⟨_, h1, _⟩ => by rw [h] at h1; cases h1
  | some name => decidable_of_iff ((name ++ "=" ++ x.text) ∈ desc)
      ⟨fun h1 => ⟨name, h, h1⟩, fun ⟨_, h1, h2⟩ => by rw [h] at h1; rw [Option.some.inj h1]; exact h2⟩

/-- A table of an ensemble with placement orders `qs` holds the quantity `x` in column `c`. -/
def Holds (L : Nat) (qs : List (List Nat)) (data : List (List ℝ)) (c : Nat) (x : Quantity) : Prop :=
  ∀ k < L * L, ∃ row, data[k]? = some row ∧ row[c]? = some (meanOver qs fun q => x.value L (q.take (k + 1)))

/-- What the columns hold. -/
theorem ensemble_holds {so : SetOrder} (hv : v ≠ .sp) (hL : 0 < L) (pl : Bool) (ctor : Nat → Nat) {rs : List RunDraws} (hne : rs ≠ [])
    (hf : ∀ r ∈ rs, 5 * (L * L) < r.fuel) :
    ∃ qs data crit, List.length qs = rs.length ∧ (∀ q ∈ qs, q.Perm (List.range (L * L))) ∧
      runEnsemble (realEnv so) v pl L ctor rs = .ok (data, crit) ∧ runEnsembleThreads (realEnv so) v L ctor rs = .ok data ∧
      (∀ k < L * L, ∃ row, data[k]? = some row ∧ row.length = 4) ∧
      Holds L qs data 0 .occupation ∧ Holds L qs data 1 .entropy ∧ Holds L qs data 2 .largest ∧ Holds L qs data 3 .wrapping := by
  obtain ⟨qs, crit, h1, h2, h3, _⟩ := C42_mean (so := so) hv hL pl ctor hne hf
  obtain ⟨_, _, _, _, _, _, h4, h5⟩ := ensemble_tables (env := realEnv so) hv hL pl ctor hne hf
  rw [h4] at h3
  obtain ⟨e1, e2⟩ := Prod.mk.inj (Except.ok.inj h3)
  rw [e1] at h4 h5
  refine ⟨qs, _, _, h1, h2, h4, h5, ?_, ?_, ?_, ?_, ?_⟩
  · intro k hk
    exact ⟨_, by rw [List.getElem?_map, List.getElem?_range hk]; rfl, rfl⟩
  · intro k hk
    refine ⟨_, by rw [List.getElem?_map, List.getElem?_range hk]; rfl, ?_⟩
    show some _ = some _
    congr 1
    have hq : qs ≠ [] := by
      intro h; rw [h] at h1
      exact hne (List.length_eq_zero_iff.1 h1.symm)
    have hn : (qs.length : ℝ) ≠ 0 := by
      have := List.length_pos_iff.2 hq
      exact_mod_cast this.ne'
    have : qs.map (fun q => Quantity.occupation.value L (q.take (k + 1))) = qs.map fun _ => ((k + 1 : Nat) : ℝ) / (L * L : Nat) := by
      apply List.map_congr_left
      intro q hq
      show ((q.take (k + 1)).length : ℝ) / (L * L : Nat) = _
      rw [List.length_take, (h2 q hq).length_eq, List.length_range, Nat.min_eq_left hk]
    rw [meanOver, this, List.map_const', List.sum_replicate, nsmul_eq_mul]
    field_simp
  · intro k hk
    exact ⟨_, by rw [List.getElem?_map, List.getElem?_range hk]; rfl, rfl⟩
  · intro k hk
    exact ⟨_, by rw [List.getElem?_map, List.getElem?_range hk]; rfl, rfl⟩
  · intro k hk
    exact ⟨_, by rw [List.getElem?_map, List.getElem?_range hk]; rfl, rfl⟩

/-- C43: the header written by `run_ensemble_entropy_order_threads` is correct: it describes each of the four columns, and every
description applies to the data. -/
theorem C43_threads_correct {so : SetOrder} (hv : v ≠ .sp) (hL : 0 < L) (ctor : Nat → Nat) {rs : List RunDraws} (hne : rs ≠ [])
    (hf : ∀ r ∈ rs, 5 * (L * L) < r.fuel) :
    ∃ qs data, List.length qs = rs.length ∧ (∀ q ∈ qs, q.Perm (List.range (L * L))) ∧ runEnsembleThreads (realEnv so) v L ctor rs = .ok data ∧
      (∀ c < 4, ∃ x, Says headColumns headDescThreads c x) ∧
      ∀ c x, Says headColumns headDescThreads c x → Holds L qs data c x := by
  obtain ⟨qs, data, crit, h1, h2, _, h3, _, g0, g1, g2, g3⟩ := ensemble_holds (so := so) hv hL false ctor hne hf
  refine ⟨qs, data, h1, h2, h3, ?_, ?_⟩
  · intro c hc
    match c, hc with
    | 0, _ => exact ⟨.occupation, by decide⟩
    | 1, _ => exact ⟨.entropy, by decide⟩
    | 2, _ => exact ⟨.largest, by decide⟩
    | 3, _ => exact ⟨.wrapping, by decide⟩
  · intro c x h
    match c with
    | 0 =>
      cases x with
      | occupation => exact g0
      | _ => exact absurd h (by decide)
    | 1 =>
      cases x with
      | entropy => exact g1
      | _ => exact absurd h (by decide)
    | 2 =>
      cases x with
      | largest => exact g2
      | _ => exact absurd h (by decide)
    | 3 =>
      cases x with
      | wrapping => exact g3
      | _ => exact absurd h (by decide)
    | c + 4 =>
      obtain ⟨name, hn, _⟩ := h
      simp [headColumns] at hn

/-- One occupied site does not wrap. -/
theorem single_not_wraps (hL : 2 ≤ L) {a : Nat} (ha : a < L * L) : ¬ Wraps L (· ∈ [a]) := by
  rintro ⟨s, v, hv, hw⟩
  have key : ∀ {s t : Nat} {v : Int × Int}, Walk L (· ∈ [a]) s t v → t = a ∧ v = 0 := by
    intro s t v hw
    induction hw with
    | nil h => exact ⟨by simpa using h, rfl⟩
    | snoc d _ h ih =>
      rw [ih.1] at h
      exact absurd (by simpa using h) (nbr_ne hL ha d)
  exact hv (key hw).2

theorem seqWrapping_single {a : Nat} (ha : a < L * L) : seqWrapping L [a] = 0 := by
  unfold seqWrapping
  split
  · rfl
  · rw [firstWrap_none (by rw [List.nil_append]; exact single_not_wraps (by omega) ha)]

theorem seqLargest_single_pos {a : Nat} (ha : a < L * L) : 0 < seqLargest L [a] := by
  have hb : 0 < 2 * (L * L) := by omega
  rw [seqLargest, if_neg (by simp)]
  have h0 : bondComp L (· ∈ [a]) 0 ∈ bondComps L (· ∈ [a]) := by
    unfold bondComps
    exact Finset.mem_image_of_mem _ (Finset.mem_range.2 hb)
  have h1 : 0 < (bondComp L (· ∈ [a]) 0).card := by
    rw [Finset.card_pos]
    exact ⟨0, by unfold bondComp; simp only [Finset.mem_filter, Finset.mem_range]; exact ⟨hb, .refl 0⟩⟩
  exact lt_of_lt_of_le h1 (Finset.le_sup (f := Finset.card) h0)

/-- C43 is false for `run_ensemble_entropy_order` and `run_ensemble_entropy_order_threads_v2`: in every run, with every lattice length and
ensemble size, the header says that column 2 ("P1") is the wrapping and column 3 ("P2") the largest-cluster order parameter, but the
columns hold the largest-cluster and the wrapping order parameter, and not what is said. -/
theorem C43_header_wrong {so : SetOrder} (hv : v ≠ .sp) (hL : 0 < L) (pl : Bool) (ctor : Nat → Nat) {rs : List RunDraws} (hne : rs ≠ [])
    (hf : ∀ r ∈ rs, 5 * (L * L) < r.fuel) :
    ∃ qs data crit, List.length qs = rs.length ∧ (∀ q ∈ qs, q.Perm (List.range (L * L))) ∧
      runEnsemble (realEnv so) v pl L ctor rs = .ok (data, crit) ∧
      Says headColumns headDesc 0 .occupation ∧ Holds L qs data 0 .occupation ∧ Says headColumns headDesc 1 .entropy ∧ Holds L qs data 1 .entropy ∧
      Says headColumns headDesc 2 .wrapping ∧ ¬ Holds L qs data 2 .wrapping ∧ Holds L qs data 2 .largest ∧
      Says headColumns headDesc 3 .largest ∧ ¬ Holds L qs data 3 .largest ∧ Holds L qs data 3 .wrapping := by
  obtain ⟨qs, data, crit, h1, h2, h3, _, _, g0, g1, g2, g3⟩ := ensemble_holds (so := so) hv hL pl ctor hne hf
  have hLL : 0 < L * L := Nat.mul_pos hL hL
  have hqs : 0 < qs.length := by rw [h1]; exact List.length_pos_iff.2 hne
  have hfirst : ∀ q ∈ qs, ∃ a < L * L, q.take (0 + 1) = [a] := by
    intro q hq
    have hl : q.length = L * L := by rw [(h2 q hq).length_eq, List.length_range]
    cases q with
    | nil => simp at hl; omega
    | cons a q => exact ⟨a, List.mem_range.1 ((h2 _ hq).mem_iff.1 (by simp)), by simp⟩
  have hw : meanOver qs (fun q => Quantity.wrapping.value L (q.take (0 + 1))) = 0 := by
    have : qs.map (fun q => Quantity.wrapping.value L (q.take (0 + 1))) = qs.map fun _ => 0 := by
      apply List.map_congr_left
      intro q hq
      obtain ⟨a, ha, e⟩ := hfirst q hq
      show (seqWrapping L (q.take (0 + 1)) : ℝ) / _ = 0
      rw [e, seqWrapping_single ha]; simp
    rw [meanOver, this]; simp
  have hl : 0 < meanOver qs (fun q => Quantity.largest.value L (q.take (0 + 1))) := by
    unfold meanOver
    refine div_pos (List.sum_pos _ ?_ ?_) (by exact_mod_cast hqs)
    · intro x hx
      obtain ⟨q, hq, rfl⟩ := List.mem_map.1 hx
      obtain ⟨a, ha, e⟩ := hfirst q hq
      show 0 < (seqLargest L (q.take (0 + 1)) : ℝ) / (2 * (L * L) : Nat)
      rw [e]
      refine div_pos (by exact_mod_cast seqLargest_single_pos ha) (by exact_mod_cast (by omega : 0 < 2 * (L * L)))
    · intro h
      have := congrArg List.length h
      simp at this
      rw [this] at hqs; simp at hqs
  refine ⟨qs, data, crit, h1, h2, h3, by decide, g0, by decide, g1, by decide, ?_, g2, by decide, ?_, g3⟩
  · intro h
    obtain ⟨row, e1, e2⟩ := h 0 hLL
    obtain ⟨row', e3, e4⟩ := g2 0 hLL
    rw [e1] at e3
    rw [← Option.some.inj e3, e2] at e4
    rw [Option.some.inj e4] at hw
    rw [hw] at hl
    exact lt_irrefl _ hl
  · intro h
    obtain ⟨row, e1, e2⟩ := h 0 hLL
    obtain ⟨row', e3, e4⟩ := g3 0 hLL
    rw [e1] at e3
    rw [← Option.some.inj e3, e2] at e4
    rw [← Option.some.inj e4] at hw
    rw [hw] at hl
    exact lt_irrefl _ hl

/-- The hypotheses hold for one realisation of L0 on the `1 × 1` lattice as for larger ones. -/
example : ∃ rs : List RunDraws, rs ≠ [] ∧ ∀ r ∈ rs, 5 * (7 * 7) < r.fuel :=
  ⟨[⟨fun _ => 0, fun _ => ⟨0, 0⟩, 246⟩], by simp, by simp⟩

end SqPerc
