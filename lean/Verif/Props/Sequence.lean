import Verif.Proof.Observe
/-
Properties C17, C21, C27: histories with detection after every placement, as in `run_once`.
-/
namespace SqPerc

variable {α : Type} {L : Nat} {env : Env α} {v v' : Variant} {S S' S1 S2 : Perc α} {seq : List Nat}

/-! ### Concrete traces for the examples -/

/-- Place `n` sites with detection after each placement, collecting the placed sites. -/
def traceLoop (env : Env α) (v : Variant) : Nat → Perc α × List Nat → Py (Perc α × List Nat)
  | 0, p => .ok p
  | n + 1, p => do
    let (S1, _) ← p.1.placeOneSite env v ⟨0, 0⟩
    if S1.selectionFlag = some .success then
      match S1.selected with
      | none => .error .typeError
      | some k => do
        let (S2, _) ← S1.detectWrapping
        traceLoop env v n (S2, p.2 ++ [k])
    else traceLoop env v n (S1, p.2)

theorem traceLoop_trace (n : Nat) : ∀ {p p' : Perc α × List Nat}, Trace env v L p.1 p.2 → traceLoop env v n p = .ok p' →
    Trace env v L p'.1 p'.2 := by
  induction n with
  | zero => intro p p' T h; rw [← Except.ok.inj h]; exact T
  | succ n ih =>
    intro p p' T h
    simp only [traceLoop] at h
    cases hp : p.1.placeOneSite env v ⟨0, 0⟩ with
    | error e => rw [hp] at h; cases h
    | ok r =>
      obtain ⟨S1, b⟩ := r
      rw [hp] at h
      replace h : (if S1.selectionFlag = some .success then _ else _) = _ := h
      split at h
      · next hf =>
        split at h
        · cases h
        · next k hk =>
          replace h : (S1.detectWrapping >>= _) = _ := h
          cases hd : S1.detectWrapping with
          | error e => rw [hd] at h; cases h
          | ok r2 =>
            obtain ⟨S2, w⟩ := r2
            rw [hd] at h
            exact ih (T.placed hp hf hk hd) h
      · next hf => exact ih (p := (S1, p.2)) (T.skipped hp hf) h

/-- New object, custom site order, `n` placements with detection; then a check. -/
def checkTrace (env : Env α) (v : Variant) (L : Nat) (ids : List Int) (n : Nat) (p : Perc α → List Nat → Bool) : Bool :=
  match (do
    let S ← Perc.new env L (fun _ => 0)
    let S ← S.setCustomIds ids false (fun _ => 0)
    traceLoop env v n (S, [])) with
  | .ok q => p q.1 q.2
  | .error _ => false

theorem checkTrace_trace {ids : List Int} {n : Nat} {p : Perc α → List Nat → Bool} (h : checkTrace env v L ids n p = true) :
    ∃ S seq, Trace env v L S seq ∧ p S seq = true := by
  unfold checkTrace at h
  cases h1 : Perc.new env L (fun _ => 0) with
  | error e => rw [h1] at h; cases h
  | ok S =>
    rw [h1] at h
    replace h : (match (S.setCustomIds ids false (fun _ => 0) >>= fun S => traceLoop env v n (S, [])) with
      | .ok q => p q.1 q.2 | .error _ => false) = true := h
    cases h2 : S.setCustomIds ids false (fun _ => 0) with
    | error e => rw [h2] at h; cases h
    | ok S' =>
      rw [h2] at h
      replace h : (match traceLoop env v n (S', []) with | .ok q => p q.1 q.2 | .error _ => false) = true := h
      cases h3 : traceLoop env v n (S', []) with
      | error e => rw [h3] at h; cases h
      | ok q =>
        rw [h3] at h
        exact ⟨q.1, q.2, traceLoop_trace n (p := (S', [])) (.setIds (.new h1) h2) h3, h⟩

/-! ### C17 -/

/-- C17: with detection after every placement, `detect_wrapping()` after a placement returns True exactly when the occupied sites
contain a closed walk with non-zero displacement. -/
theorem C17_detect_exact (hL : 3 ≤ L) (T : Trace env v L S seq) {d : Draw} {b w : Bool} (hp : S.placeOneSite env v d = .ok (S1, b))
    (hf : S1.selectionFlag = some .success) (hd : S1.detectWrapping = .ok (S2, w)) :
    (w = true ↔ Wraps L S1.Occ) ∧ ∃ k, S1.selected = some k ∧ ∀ s, S1.Occ s ↔ s ∈ seq ++ [k] := by
  obtain ⟨k, hk, _, T2⟩ := T.place hp hf hd
  obtain ⟨_, A, M, hA, _⟩ := T.sim
  obtain ⟨A1, hst, M1⟩ := placeOneSite_steps M hA.inv hp
  obtain ⟨_, _, _, A2, hst2, M2, haw, hV, _⟩ := detectWrapping_steps M1 (hA.inv.steps hst) hd
  have ho : S1.Occ = S2.Occ := by rw [M1.occ_eq, M2.occ_eq, hV]
  have hocc : ∀ s, S1.Occ s ↔ s ∈ seq ++ [k] := by rw [ho]; exact T2.reports.occ
  refine ⟨?_, k, hk, hocc⟩
  rw [← haw, ← M2.aw, T2.aw_iff, show S1.Occ = (· ∈ seq ++ [k]) from funext fun s => propext (hocc s)]
  exact ⟨fun h => h.2, fun h => ⟨hL, h⟩⟩

/-- C17: the same for any later call: in such a history `detect_wrapping()` never raises once a site is placed, and returns whether the
configuration wraps. -/
theorem C17_detect_iff (hL : 3 ≤ L) (T : Trace env v L S seq) (hne : seq ≠ []) :
    ∃ S' w, S.detectWrapping = .ok (S', w) ∧ (w = true ↔ Wraps L S.Occ) ∧ ∀ s, S.Occ s ↔ s ∈ seq := by
  obtain ⟨_, A, M, hA, I⟩ := T.sim
  have hsel : S.selected ≠ none := by
    rw [M.sel]
    intro h
    have hcnt : A.count = 0 := by
      clear T M I hne
      induction hA with
      | init _ => rfl
      | step _ hs ih =>
        cases hs with
        | place _ _ _ _ => cases h
        | tick _ => exact ih h
        | detect _ hk _ _ => exact absurd (hk.symm.trans h) (by simp)
        | reselect _ _ => cases h
    rw [I.count] at hcnt
    exact hne (List.eq_nil_of_length_eq_zero hcnt)
  obtain ⟨S', w, hd⟩ := detectWrapping_ok M hA.inv hsel
  refine ⟨S', w, hd, ?_, T.reports.occ⟩
  obtain ⟨_, _, _, A2, _, M2, haw, hV, _⟩ := detectWrapping_steps M hA.inv hd
  have ho : S.Occ = S'.Occ := by rw [M.occ_eq, M2.occ_eq, hV]
  have T' := T.detect hd
  rw [← haw, ← M2.aw, T'.aw_iff, ho, show S'.Occ = (· ∈ seq) from funext fun s => propext (T'.reports.occ s)]
  exact ⟨fun h => h.2, fun h => ⟨hL, h⟩⟩

/-- L = 3: the staircase 0, 4, 8 is closed by 1 and 5 and 2: wrapping is found with the sixth site; before it there is none. -/
example : (∃ S seq, Trace demoEnv .l0 3 S seq ∧ seq = [0, 4, 8, 1, 5] ∧ S.afterWrapping = false) ∧
    ∃ S seq, Trace demoEnv .l0 3 S seq ∧ seq = [0, 4, 8, 1, 5, 2] ∧ S.afterWrapping = true := by
  constructor
  · obtain ⟨S, seq, T, hp⟩ := checkTrace_trace (env := demoEnv) (v := .l0) (L := 3) (ids := [0, 4, 8, 1, 5, 2]) (n := 5)
      (p := fun S seq => decide (seq = [0, 4, 8, 1, 5]) && !S.afterWrapping) (by decide +kernel)
    simp only [Bool.and_eq_true, decide_eq_true_eq, Bool.not_eq_true'] at hp
    exact ⟨S, seq, T, hp⟩
  · obtain ⟨S, seq, T, hp⟩ := checkTrace_trace (env := demoEnv) (v := .l0) (L := 3) (ids := [0, 4, 8, 1, 5, 2]) (n := 6)
      (p := fun S seq => decide (seq = [0, 4, 8, 1, 5, 2]) && S.afterWrapping) (by decide +kernel)
    simp only [Bool.and_eq_true, decide_eq_true_eq] at hp
    exact ⟨S, seq, T, hp⟩

/-! ### C21 -/

/-- C21: in a history with detection after every placement the critical values are those of the first wrapping configuration: if the
configuration wraps, the placement sequence splits as `pre ++ k :: post` where `pre` does not wrap and `pre ++ [k]` does; `get_pc()` is
`(|pre| + 1) / L²` and the counts are those of the connected cluster of `k` at that moment.  If it does not wrap they are all 0. -/
theorem C21_critical_values (hL : 3 ≤ L) (T : Trace env v L S seq) :
    (Wraps L (· ∈ seq) → ∃ pre k post, seq = pre ++ k :: post ∧ ¬ Wraps L (· ∈ pre) ∧ WrapsAt L (· ∈ pre ++ [k]) k ∧
      S.getPc env = env.ar.div (env.ar.ofNat (pre.length + 1)) (env.ar.ofNat (L * L)) ∧
      S.getSiteCountPc = (siteComp L (· ∈ pre ++ [k]) k).card ∧
      ∀ d, S.getBondCountPc = (bondComp L (· ∈ pre ++ [k]) (bondAt L k d)).card) ∧
    (¬ Wraps L (· ∈ seq) → S.getPc env = env.ar.ofNat 0 ∧ S.getSiteCountPc = 0 ∧ S.getBondCountPc = 0) := by
  obtain ⟨_, A, M, hA, I⟩ := T.sim
  have hN : S.lat.siteCount = L * L := by rw [M.lat, mkLat_siteCount]
  constructor
  · intro h
    have ha := (I.aw_iff hA).2 ⟨hL, h⟩
    obtain ⟨pre, k, post, h1, h2, h3, h4, h5, h6, _⟩ := I.on ha
    refine ⟨pre, k, post, h1, h2, h3, ?_, ?_, fun d => ?_⟩
    · rw [Perc.getPc, if_pos (M.aw.trans ha), M.pco, h4, hN]
    · rw [Perc.getSiteCountPc, M.pcs, h5]
    · rw [Perc.getBondCountPc, M.pcb, h6 d]
  · intro h
    exact (T.reports.before hL (firstWrap_none (by rw [List.nil_append]; exact h))).2

/-- C21 for `run_once`: whatever was placed before (with detection), a completed `run_once` continues the placement sequence, and the
critical values are those of the first wrapping configuration of the whole sequence. -/
theorem C21_run_once (hL : 3 ≤ L) (T : Trace env v L S seq) {fuel : Nat} {ds : Nat → Draw} (h : S.runOnce env v fuel ds = .ok S') :
    ∃ seq', Trace env v L S' (seq ++ seq') ∧
      (Wraps L (· ∈ seq ++ seq') → ∃ pre k post, seq ++ seq' = pre ++ k :: post ∧ ¬ Wraps L (· ∈ pre) ∧ WrapsAt L (· ∈ pre ++ [k]) k ∧
        S'.getPc env = env.ar.div (env.ar.ofNat (pre.length + 1)) (env.ar.ofNat (L * L)) ∧
        S'.getSiteCountPc = (siteComp L (· ∈ pre ++ [k]) k).card ∧
        ∀ d, S'.getBondCountPc = (bondComp L (· ∈ pre ++ [k]) (bondAt L k d)).card) := by
  obtain ⟨S1, seq', _, T', _⟩ := T.runOnce_data h
  exact ⟨seq', T', (C21_critical_values hL T').1⟩

/-- Site 8 is placed first, then the row 0, 1, 2 is completed: critical values (4 sites placed; the cluster has 3 + 1 sites because
8 is adjacent to 2 over the boundary), then one more site. -/
example : ∃ S seq, Trace demoEnv .l0 3 S seq ∧ seq = [8, 0, 1, 2, 3] ∧ S.pcOccupied = 4 ∧ S.getSiteCountPc = 4 ∧ S.getBondCountPc = 12 := by
  obtain ⟨S, seq, T, hp⟩ := checkTrace_trace (env := demoEnv) (v := .l0) (L := 3) (ids := [8, 0, 1, 2, 3]) (n := 5)
    (p := fun S seq => decide (seq = [8, 0, 1, 2, 3] ∧ S.pcOccupied = 4 ∧ S.getSiteCountPc = 4 ∧ S.getBondCountPc = 12)) (by decide +kernel)
  exact ⟨S, seq, T, by simpa using hp⟩

/-! ### C27 -/

/-- C27: everything reported, except possibly rounding of the entropy, depends only on the sequence of placed sites — not on the class,
nor on the iteration order of sets, nor on the calls in between. -/
theorem C27_observables {so so' : SetOrder} {ar : Arith α} (T1 : Trace ⟨so, ar⟩ v L S1 seq) (T2 : Trace ⟨so', ar⟩ v' L S2 seq) :
    S1.occupationProb ⟨so, ar⟩ = S2.occupationProb ⟨so', ar⟩ ∧ S1.orderLargest ⟨so, ar⟩ = S2.orderLargest ⟨so', ar⟩ ∧
    S1.orderWrapping ⟨so, ar⟩ = S2.orderWrapping ⟨so', ar⟩ ∧ S1.getPc ⟨so, ar⟩ = S2.getPc ⟨so', ar⟩ ∧
    S1.getSiteCountPc = S2.getSiteCountPc ∧ S1.getBondCountPc = S2.getBondCountPc ∧ S1.largestCluster = S2.largestCluster ∧
    S1.afterWrapping = S2.afterWrapping ∧ (∀ s, S1.Occ s ↔ S2.Occ s) := by
  have R1 := T1.reports
  have R2 := T2.reports
  refine ⟨R1.prob.trans R2.prob.symm, R1.ordLargest.trans R2.ordLargest.symm, T1.ordW.trans T2.ordW.symm, ?_⟩
  have hrest : S1.largestCluster = S2.largestCluster ∧ S1.afterWrapping = S2.afterWrapping ∧ (∀ s, S1.Occ s ↔ S2.Occ s) :=
    ⟨R1.largest.trans R2.largest.symm, Bool.eq_iff_iff.2 (T1.aw_iff.trans T2.aw_iff.symm), fun s => (R1.occ s).trans (R2.occ s).symm⟩
  suffices h : S1.getPc ⟨so, ar⟩ = S2.getPc ⟨so', ar⟩ ∧ S1.getSiteCountPc = S2.getSiteCountPc ∧ S1.getBondCountPc = S2.getBondCountPc from
    ⟨h.1, h.2.1, h.2.2, hrest⟩
  by_cases hL : L < 3
  · obtain ⟨_, a1, a2, a3⟩ := R1.small hL
    obtain ⟨_, b1, b2, b3⟩ := R2.small hL
    exact ⟨a1.trans b1.symm, a2.trans b2.symm, a3.trans b3.symm⟩
  · cases hw : firstWrap L [] seq with
    | none =>
      obtain ⟨_, a1, a2, a3⟩ := R1.before (by omega) hw
      obtain ⟨_, b1, b2, b3⟩ := R2.before (by omega) hw
      exact ⟨a1.trans b1.symm, a2.trans b2.symm, a3.trans b3.symm⟩
    | some p =>
      obtain ⟨_, a1, a2, a3⟩ := R1.after (by omega) p.1 p.2 hw
      obtain ⟨_, b1, b2, b3⟩ := R2.after (by omega) p.1 p.2 hw
      exact ⟨a1.trans b1.symm, a2.trans b2.symm, a3.trans b3.symm⟩

/-- C27: in exact arithmetic the entropy depends only on the sequence too. -/
theorem C27_entropy {so so' : SetOrder} {S1 S2 : Perc ℝ} (T1 : Trace (realEnv so) v L S1 seq) (T2 : Trace (realEnv so') v' L S2 seq) :
    S1.entropy = S2.entropy := T1.entropy.trans T2.entropy.symm

/-- One row of the data array for a configuration reached by placing `q`: occupation probability, entropy, largest-cluster and wrapping
order parameters, all given by the specification. -/
noncomputable def dataRow (so : SetOrder) (L : Nat) (q : List Nat) : List ℝ :=
  [(q.length : ℝ) / (L * L : Nat), shannon L (· ∈ q), (seqLargest L q : ℝ) / (2 * (L * L) : Nat), ordW (realEnv so) L q]

/-- C27: the data array of a first `run_once` is given by the placement sequence: one row per placed site, holding the four quantities
of the configuration right after that placement. -/
theorem C27_data_array {so : SetOrder} {S S' : Perc ℝ} {fuel : Nat} {ds : Nat → Draw}
    (T : Trace (realEnv so) v L S seq) (h : S.runOnce (realEnv so) v fuel ds = .ok S')
    (e : S.firstRun = true ∧ S.occProbList = [] ∧ S.entropyList = [] ∧ S.orderWrapList = [] ∧ S.orderLargestList = []) :
    ∃ seq', Trace (realEnv so) v L S' (seq ++ seq') ∧ S'.getDataArray = .ok ((stages seq seq').map (dataRow so L)) := by
  obtain ⟨U, a, rfl, t, c⟩ := T.runOnce_data h
  refine ⟨a, t, ?_⟩
  obtain ⟨es, x1, _, x2⟩ := c.entropy
  have hes := x2 (fun q => shannon L (· ∈ q)) (fun T q h => h.entropy)
  obtain ⟨e1, e2, e3, e4, e5⟩ := e
  have c1 := c.occProb
  have c2 := c.ordWrap
  have c3 := c.ordLargest
  rw [if_pos e1, e2, List.nil_append] at c1
  rw [e3, List.nil_append, hes] at x1
  rw [e4, List.nil_append] at c2
  rw [e5, List.nil_append] at c3
  simp only [Perc.getDataArray, c1, x1, c2, c3]
  rw [if_pos (by simp)]
  congr 1
  generalize stages seq a = l
  induction l with
  | nil => rfl
  | cons q l ih => simp only [List.map_cons, List.zip_cons_cons, ih]; rfl

/-- C27: two first runs that place the same sites in the same order produce the same data array, whatever the classes and the iteration
orders of sets. -/
theorem C27_same_data {so so' : SetOrder} {S1 S2 S1' S2' : Perc ℝ} {fuel fuel' : Nat} {ds ds' : Nat → Draw}
    (T1 : Trace (realEnv so) v L S1 seq) (T2 : Trace (realEnv so') v' L S2 seq)
    (h1 : S1.runOnce (realEnv so) v fuel ds = .ok S1') (h2 : S2.runOnce (realEnv so') v' fuel' ds' = .ok S2')
    (e1 : S1.firstRun = true ∧ S1.occProbList = [] ∧ S1.entropyList = [] ∧ S1.orderWrapList = [] ∧ S1.orderLargestList = [])
    (e2 : S2.firstRun = true ∧ S2.occProbList = [] ∧ S2.entropyList = [] ∧ S2.orderWrapList = [] ∧ S2.orderLargestList = []) :
    ∃ q1 q2, Trace (realEnv so) v L S1' (seq ++ q1) ∧ Trace (realEnv so') v' L S2' (seq ++ q2) ∧
      (q1 = q2 → S1'.getDataArray = S2'.getDataArray) := by
  obtain ⟨q1, t1, d1⟩ := C27_data_array T1 h1 e1
  obtain ⟨q2, t2, d2⟩ := C27_data_array T2 h2 e2
  refine ⟨q1, q2, t1, t2, ?_⟩
  rintro rfl
  rw [d1, d2]
  rfl

/-- The same sites placed by the plain and the L2 class with opposite set orders; the L2
class is given other candidates but moves on from site 0 to 1 and 2. -/
example : ∃ S1 S2 seq, Trace demoEnv .l0 3 S1 seq ∧ Trace { demoEnv with set := demoSet' } .l2 3 S2 seq ∧ seq = [0, 1, 2] := by
  obtain ⟨S1, seq, T1, h1⟩ := checkTrace_trace (env := demoEnv) (v := .l0) (L := 3) (ids := [0, 1, 2]) (n := 4)
    (p := fun _ seq => decide (seq = [0, 1, 2])) (by decide +kernel)
  obtain ⟨S2, seq2, T2, h2⟩ := checkTrace_trace (env := { demoEnv with set := demoSet' }) (v := .l2) (L := 3) (ids := [0, 4, 8]) (n := 4)
    (p := fun _ seq => decide (seq = [0, 1, 2])) (by decide +kernel)
  rw [decide_eq_true_eq] at h1 h2
  subst h1 h2
  exact ⟨S1, S2, _, T1, T2, rfl⟩

end SqPerc
