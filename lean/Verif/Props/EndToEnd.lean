import Verif.Props.Hoeffding
import Verif.Props.Ieee
import Verif.Props.Threshold
/-
C107: what the numbers in the files of an ensemble are worth, with the errors of sampling, of the floating point arithmetic and of the printing.
-/
namespace SqPerc

variable {α : Type} {env : Env α} {so : SetOrder} {L M E : Nat} {v : Variant}

/-! ### The placement orders in any arithmetic -/

/-- The data of a run in terms of its order. -/
theorem Clean.finished_of (hv : v ≠ .sp) {S1 U : Perc α} (h1 : Clean env v L true S1) {q : List Nat}
    (T : Trace env v L { U with firstRun := false } q) (c : Collected env v L S1 U [] q) (hp : q.Perm (List.range (L * L))) :
    ∃ F, Finished env v L { U with firstRun := false } q F := by
  have D := h1.data hv
  obtain ⟨d1, d2, d3⟩ := D.lists rfl
  have hl : q.length = L * L := by rw [hp.length_eq, List.length_range]
  have hs : (stages [] q).length = L * L := by rw [stages_length, hl]
  obtain ⟨es, e4, e4l, e4x⟩ := c.entropy
  have hent : ∀ P : α → List Nat → Prop, (∀ T q, Trace env v L T q → P T.entropy q) → List.Forall₂ P es (stages [] q) := by
    intro P hP
    obtain ⟨es', c4, c5⟩ := c.entropyRel P hP
    rwa [List.append_cancel_left (e4.symm.trans c4)]
  have hprob : (stages [] q).map (prob env L) = fullProbs env L := by
    rw [stages_prob, hl]
    unfold fullProbs
    apply List.map_congr_left
    intro k _; simp
  have e3 : U.occProbList = (stages [] q).map (prob env L) := by
    rw [c.occProb]
    rcases D.probs with ⟨h1, h2⟩ | ⟨h1, h2⟩
    · rw [if_pos h1, h2]; rfl
    · rw [if_neg (by rw [h1]; simp), h2, hprob]
  have e5 := c.ordWrap
  have e6 := c.ordLargest
  rw [d1, List.nil_append] at e4
  rw [d2, List.nil_append] at e5
  rw [d3, List.nil_append] at e6
  have hd : ({ U with firstRun := false } : Perc α).getDataArray =
      .ok (List.zipWith (fun e q => [prob env L q, e, ordL env L q, ordW env L q]) es (stages [] q)) := by
    simp only [Perc.getDataArray, e3, e4, e5, e6]
    rw [if_pos (by simp [e4l, hs, hl])]
    congr 1
    have : es.length = (stages [] q).length := by rw [e4l, hs, hl]
    clear hent e4l e4 e4x hs hprob e3 e5 e6
    generalize stages [] q = l at this
    induction l generalizing es with
    | nil => simp
    | cons q l ih =>
      cases es with
      | nil => simp at this
      | cons e es => simp only [List.map_cons, List.zip_cons_cons, List.zipWith_cons_cons]; rw [ih]; simpa using this
  obtain ⟨F, hF, hv⟩ := rows_table (env := env) (L := L) es (stages [] q) (e4l.trans hl) hs
  have hst : ∀ k < L * L, (stages [] q)[k]? = some (q.take (k + 1)) := by
    intro k hk
    rw [stages_getElem?, if_pos (by rw [hl]; exact hk)]
    rfl
  have hes : ∀ k < L * L, ∃ e, es[k]? = some e := fun k hk => ⟨_, List.getElem?_eq_getElem (by omega)⟩
  refine ⟨F, T, hp, by rw [hd, hF], ?_, ?_, ?_, ?_⟩
  · intro k hk; obtain ⟨e, he⟩ := hes k hk; exact (hv k _ e (hst k hk) he).1
  · intro P hP k hk
    obtain ⟨e, he⟩ := hes k hk
    rw [(hv k _ e (hst k hk) he).2.1]
    obtain ⟨h1, h2⟩ := List.getElem?_eq_some_iff.1 he
    obtain ⟨h3, h4⟩ := List.getElem?_eq_some_iff.1 (hst k hk)
    have := (hent P hP).get h1 h3
    rwa [List.get_eq_getElem, List.get_eq_getElem, h2, h4] at this
  · intro k hk; obtain ⟨e, he⟩ := hes k hk; exact (hv k _ e (hst k hk) he).2.2.1
  · intro k hk; obtain ⟨e, he⟩ := hes k hk; exact (hv k _ e (hst k hk) he).2.2.2

/-- The orders of the realisations of L0 are the shuffles, in any arithmetic. -/
theorem Realised.shuffles {rs : List RunDraws} {Ss : List (Perc α)} {S : Perc α} (hR : Realised env .l0 S rs Ss) :
    ∀ {b : Bool}, Clean env .l0 L b S → (∀ r ∈ rs, L * L < r.fuel) →
      List.Forall₂ (fun S q => ∃ F, Finished env .l0 L S q F) Ss (shuffleOrders S.siteIds (rs.map (·.shuffle))) := by
  induction hR with
  | nil => intro b _ _; exact .nil
  | @cons S S1 S2 r rs Ss h1 h2 _ ih =>
    intro b h hf
    have hv : Variant.l0 ≠ .sp := by decide
    have hc := h.reset h1
    have hF := (hc.reach hv).2 rfl
    have hid := reset_siteIds (h.reach hv).1 h1
    rw [if_neg (by decide)] at hid
    obtain ⟨hp, R⟩ := hF.perm rfl
    have hl : S1.siteIds.length = L * L := by rw [hp.length_eq, List.length_range]
    have hfr := hf r (List.mem_cons_self ..)
    obtain ⟨U, e, T, R1, c⟩ := R.runLoop rfl (hp.nodup_iff.2 List.nodup_range) r.fuel r.steps hF.trace (by omega)
    rw [List.take_zero, List.drop_zero] at c
    have e2 : S1.runOnce env .l0 r.fuel r.steps = .ok { U with firstRun := false } := by
      simp only [Perc.runOnce]; rw [e]; rfl
    have e2' : S1.runOnceV env .l0 r.fuel r.steps = .ok { U with firstRun := false } := e2
    rw [h2] at e2'
    obtain rfl := Except.ok.inj e2'
    rw [List.map_cons, shuffleOrders]
    have hi := ih (hc.run e2) fun r hr => hf r (List.mem_cons_of_mem _ hr)
    have hU : U.siteIds = pyShuffle r.shuffle S.siteIds := R1.siteIds.trans hid
    refine .cons ?_ ?_
    · have := hc.finished_of hv (T.data false _ _ _ _ _) c hp
      rwa [hid] at this
    · rw [← hU]; exact hi

/-- The orders of the realisations of L1 and L2 are those of the growth process, in any arithmetic. -/
theorem Realised.growths (hv : v = .l1 ∨ v = .l2) {rs : List RunDraws} {Ss : List (Perc α)} {S : Perc α} (hR : Realised env v S rs Ss) :
    ∀ {b : Bool}, Clean env v L b S → (∀ r ∈ rs, 5 * (L * L) < r.fuel) →
      List.Forall₂ (fun S q => ∃ F, Finished env v L S q F) Ss
        (rs.map fun r => growthOrder L v.deep (List.range (L * L)) (5 * (L * L)) fun i => (r.steps i).pick) := by
  induction hR with
  | nil => intro b _ _; exact .nil
  | @cons S S1 S2 r rs Ss h1 h2 _ ih =>
    intro b h hf
    have hv' : v ≠ .sp := by rcases hv with rfl | rfl <;> decide
    have hc := h.reset h1
    have hF := (hc.reach hv').2 rfl
    have hid := reset_siteIds (h.reach hv').1 h1
    rw [if_pos hv] at hid
    obtain ⟨U, e2, T, c, hp⟩ := C92_run_once hF hv (hf r (List.mem_cons_self ..)) r.steps le_rfl
    rw [hid] at T c hp
    have e2' : S1.runOnceV env v r.fuel r.steps = .ok { U with firstRun := false } := by rcases hv with rfl | rfl <;> exact e2
    rw [h2] at e2'
    obtain rfl := Except.ok.inj e2'
    exact .cons (hc.finished_of hv' T c hp) (ih (hc.run e2) fun r hr => hf r (List.mem_cons_of_mem _ hr))

/-- C107: the order in which the sites are placed does not depend on the arithmetic: for L0 it is given by the shuffles alone, -/
theorem orders_l0 (env : Env α) (hL : 0 < L) (ctor : Nat → Nat) {rs : List RunDraws} (hne : rs ≠ []) (hf : ∀ r ∈ rs, 5 * (L * L) < r.fuel) :
    Orders env .l0 L ctor rs (shuffleOrders (pyShuffle ctor (List.range (L * L))) (rs.map (·.shuffle))) := by
  obtain ⟨S0, x0, xs, e0, hR, _⟩ := ensemble_tables (env := env) (v := .l0) (by decide) hL true ctor hne hf
  have hids : S0.siteIds = pyShuffle ctor (List.range (L * L)) := by
    obtain ⟨rev, e, _⟩ := new_ok env hL ctor
    rw [e] at e0
    rw [← Except.ok.inj e0]
  refine ⟨S0, _, e0, hR, ?_⟩
  rw [← hids]
  exact hR.shuffles (.new e0) fun r hr => by have := hf r hr; omega

/-- for L1 and L2 by the growth process of the specification. -/
theorem orders_growth (env : Env α) (hv : v = .l1 ∨ v = .l2) (hL : 0 < L) (ctor : Nat → Nat) {rs : List RunDraws} (hne : rs ≠ [])
    (hf : ∀ r ∈ rs, 5 * (L * L) < r.fuel) :
    Orders env v L ctor rs (rs.map fun r => growthOrder L v.deep (List.range (L * L)) (5 * (L * L)) fun i => (r.steps i).pick) := by
  obtain ⟨S0, x0, xs, e0, hR, _⟩ := ensemble_tables (env := env) (v := v) (by rcases hv with rfl | rfl <;> decide) hL true ctor hne hf
  exact ⟨S0, _, e0, hR, hR.growths hv (.new e0) hf⟩

/-- The classes L0, L1 and L2: two programs that differ in the arithmetic and in the order in which sets are gone through place the sites in the
same orders. -/
theorem C107_same_orders {β : Type} (env : Env α) (env' : Env β) (hv : v ≠ .sp) (hL : 0 < L) (ctor : Nat → Nat) {rs : List RunDraws} (hne : rs ≠ [])
    (hf : ∀ r ∈ rs, 5 * (L * L) < r.fuel) : ∃ qs, Orders env v L ctor rs qs ∧ Orders env' v L ctor rs qs := by
  cases v with
  | sp => exact absurd rfl hv
  | l0 => exact ⟨_, orders_l0 env hL ctor hne hf, orders_l0 env' hL ctor hne hf⟩
  | l1 => exact ⟨_, orders_growth env (.inl rfl) hL ctor hne hf, orders_growth env' (.inl rfl) hL ctor hne hf⟩
  | l2 => exact ⟨_, orders_growth env (.inr rfl) hL ctor hne hf, orders_growth env' (.inr rfl) hL ctor hne hf⟩

/-! ### The files next to the tables of exact arithmetic -/

/-- Exact arithmetic is rounded with precision 0. -/
theorem rounded_real (so : SetOrder) (hi : ℝ) (N : Nat) : Rounded (realEnv so).ar (fun x : ℝ => x) (fun _ => True) 0 0 hi N where
  ofNat _ _ := ⟨trivial, rfl⟩
  add x y _ _ _ := ⟨trivial, by show |x + y - (x + y)| ≤ _; simp⟩
  sub x y _ _ _ := ⟨trivial, by show |x - y - (x - y)| ≤ _; simp⟩
  mul x y _ _ _ _ := ⟨trivial, by show |x * y - x * y| ≤ _; simp⟩
  div x y _ _ _ _ _ := ⟨trivial, by show |x / y - x / y| ≤ _; simp⟩
  div_self x _ h := ⟨trivial, div_self h⟩
  neg _ _ := ⟨trivial, rfl⟩
  log x _ _ _ _ := ⟨trivial, by show |Real.log x - Real.log x| ≤ _; simp⟩

theorem gradual_real (so : SetOrder) (hi : ℝ) : Gradual (realEnv so).ar (fun x : ℝ => x) (fun _ => True) 0 0 hi :=
  fun x y _ _ _ _ => ⟨trivial, by show |x / y - x / y| ≤ _; simp⟩

theorem fitsE_real (hL : 0 < L) (hE : 0 < E) : FitsE 0 0 (max (4 * ((2 * (L * L) : Nat) : ℝ)) (4 * scale L * (E + 2))) L E :=
  ⟨⟨hL, le_rfl, by norm_num, by norm_num, le_max_left _ _⟩, hE, by norm_num, le_max_right _ _⟩

/-- The tables of exact arithmetic for given orders. -/
theorem exact_table (hv : v ≠ .sp) (hL : 0 < L) (pl : Bool) (ctor : Nat → Nat) {rs : List RunDraws} (hne : rs ≠ [])
    (hf : ∀ r ∈ rs, 5 * (L * L) < r.fuel) {qs : List (List Nat)} (O : Orders (realEnv so) v L ctor rs qs) :
    ∃ table crit, runEnsemble (realEnv so) v pl L ctor rs = .ok (table, crit) ∧ runEnsembleThreads (realEnv so) v L ctor rs = .ok table ∧
      (∀ k < L * L, entry table k 1 = meanOver qs (fun q => shannon L (· ∈ q.take (k + 1))) ∧
        entry table k 2 = meanOver qs (fun q => (seqLargest L (q.take (k + 1)) : ℝ) / (2 * (L * L) : Nat)) ∧
        entry table k 3 = meanOver qs (fun q => (seqWrapping L (q.take (k + 1)) : ℝ) / (2 * (L * L) : Nat))) ∧
      List.Forall₂ (CritOf L) qs crit := by
  obtain ⟨table, crit, _, _, h1, h2, h3, h4⟩ := C88_table_of (N := max (2 * (L * L)) rs.length) hv (fitsE_real hL (List.length_pos_iff.2 hne))
    (rounded_real so _ _) (le_max_left _ _) (le_max_right _ _) (gradual_real so _) pl ctor hf O
  refine ⟨table, crit, h1, h2, fun k hk => ?_, ?_⟩
  · obtain ⟨p, h, a, b, e, _, _, b1, b2, b3⟩ := h3.row k hk
    simp only [zero_mul, abs_nonpos_iff, sub_eq_zero] at b1 b2 b3
    simp only [entry, List.getD_eq_getElem?_getD, e, Option.getD_some]
    exact ⟨b1, b2, b3⟩
  · refine h4.imp ?_
    rintro q r ⟨r', c1, _, c2, c3, c4⟩
    simp only [zero_mul, abs_nonpos_iff, sub_eq_zero] at c2
    obtain ⟨a, b, c⟩ := r
    obtain ⟨a', b', c'⟩ := r'
    obtain rfl : a = a' := c2
    obtain rfl : b = b' := c3
    obtain rfl : c = c' := c4
    exact c1

/-- All rows and columns of the tables of exact arithmetic. -/
theorem exact_rows (hv : v ≠ .sp) (hL : 0 < L) (pl : Bool) (ctor : Nat → Nat) {rs : List RunDraws} (hne : rs ≠ [])
    (hf : ∀ r ∈ rs, 5 * (L * L) < r.fuel) {qs : List (List Nat)} (O : Orders (realEnv so) v L ctor rs qs) {table : List (List ℝ)}
    {crit : List (CritRow ℝ)} (e : runEnsemble (realEnv so) v pl L ctor rs = .ok (table, crit)) : table.length = L * L ∧
    ∀ k < L * L, table[k]? = some [((k + 1 : Nat) : ℝ) / (L * L : Nat), meanOver qs (fun q => shannon L (· ∈ q.take (k + 1))),
      meanOver qs (fun q => (seqLargest L (q.take (k + 1)) : ℝ) / (2 * (L * L) : Nat)),
      meanOver qs (fun q => (seqWrapping L (q.take (k + 1)) : ℝ) / (2 * (L * L) : Nat))] := by
  obtain ⟨table', crit', _, _, h1, h2, h3, h4⟩ := C88_table_of (N := max (2 * (L * L)) rs.length) hv (fitsE_real hL (List.length_pos_iff.2 hne))
    (rounded_real so _ _) (le_max_left _ _) (le_max_right _ _) (gradual_real so _) pl ctor hf O
  rw [e] at h1
  obtain ⟨rfl, rfl⟩ := Prod.mk.inj (Except.ok.inj h1)
  refine ⟨h3.length, fun k hk => ?_⟩
  obtain ⟨p, h, a, b, e, _, b0, b1, b2, b3⟩ := h3.row k hk
  simp only [zero_mul, abs_nonpos_iff, sub_eq_zero] at b0 b1 b2 b3
  rw [e, b0, b1, b2, b3]

/-- The entry in row `k` and column `c` of a table read from a file. -/
def fileEntry (t : List (List ℚ)) (k c : Nat) : ℝ := ((t.getD k []).getD c 0 : ℚ)

/-- The part of the error of an entry of the files that comes from the arithmetic and the printing, in units of the range of its column. -/
noncomputable def fileTol (L : Nat) : ℝ := 1 / 10 ^ 9 + 25 / 10 ^ 15 * (L * L : Nat)

theorem tol_order (hE : E ≤ 4 * 10 ^ 5) : 2 * ((2⁻¹ : ℝ) ^ 52 * (2 * E + 9)) + printErr ≤ fileTol L := by
  refine (eta_ieee hE).trans ?_
  have : (0 : ℝ) ≤ 25 / 10 ^ 15 * (L * L : Nat) := by positivity
  unfold fileTol
  norm_num at this ⊢
  linarith

theorem tol_entropy (hL : 0 < L) (hE : E ≤ 4 * 10 ^ 5) {k : Nat} (hk : k < L * L) :
    2 * ((2⁻¹ : ℝ) ^ 52 * (Real.log (2 * (L * L) : Nat) + 1) * (20 * (k + 2) + 2 * (E + 4))) + printErr * Real.log (2 * (L * L) : Nat) ≤
      fileTol L * Real.log (2 * (L * L) : Nat) := by
  have hN : 1 ≤ L * L := Nat.mul_pos hL hL
  unfold fileTol
  have hl : (1 : ℝ) ≤ 3 / 2 * Real.log (2 * (L * L) : Nat) := by
    have h2 : Real.log 2 ≤ Real.log (2 * (L * L) : Nat) := Real.log_le_log (by norm_num) (by exact_mod_cast (by omega : 2 ≤ 2 * (L * L)))
    have := Real.log_two_gt_d9
    linarith
  generalize Real.log (2 * (L * L) : Nat) = g at hl ⊢
  have hg : 0 < g := by linarith
  have hEr : (E : ℝ) ≤ 4 * 10 ^ 5 := by exact_mod_cast hE
  have hkr : (k : ℝ) + 1 ≤ (L * L : Nat) := by exact_mod_cast hk
  have hN0 : (0 : ℝ) ≤ (L * L : Nat) := Nat.cast_nonneg _
  generalize ((L * L : Nat) : ℝ) = n at hkr hN0 ⊢
  have h1 : (2⁻¹ : ℝ) ^ 52 * (g + 1) * (20 * (k + 2) + 2 * (E + 4)) ≤ 2⁻¹ ^ 52 * (5 / 2 * g) * (20 * (n + 1) + 2 * (4 * 10 ^ 5 + 4)) :=
    mul_le_mul (mul_le_mul_of_nonneg_left (by linarith) (by positivity)) (by linarith) (by positivity) (by positivity)
  have h2 : 2 * ((2⁻¹ : ℝ) ^ 52 * (5 / 2) * (20 * (n + 1) + 2 * (4 * 10 ^ 5 + 4))) + printErr ≤ 1 / 10 ^ 9 + 25 / 10 ^ 15 * n := by
    unfold printErr
    norm_num at hN0 ⊢
    linarith
  have h3 := mul_le_mul_of_nonneg_right h2 hg.le
  have h4 : 2 * ((2⁻¹ : ℝ) ^ 52 * (5 / 2 * g) * (20 * (n + 1) + 2 * (4 * 10 ^ 5 + 4))) + printErr * g =
    (2 * ((2⁻¹ : ℝ) ^ 52 * (5 / 2) * (20 * (n + 1) + 2 * (4 * 10 ^ 5 + 4))) + printErr) * g := by ring
  linarith

/-- C107: the files of the program with Python's floats, read back, next to the results in exact arithmetic with the same random numbers (and any
order of the sets): every entry agrees up to `10⁻⁹ + 2.5 · 10⁻¹⁴ L²` times the range of its column, every threshold up to a relative error of `10⁻¹⁰`,
and the numbers of sites and bonds exactly. -/
theorem C107_exact {so' : SetOrder} {lg : Dbl → Dbl} (hlg : Dbl.GoodLog lg (2⁻¹ ^ 52)) (hv : v ≠ .sp) {rs : List RunDraws} (hL0 : 0 < L) (hL : L ≤ 10 ^ 4)
    (hne : rs ≠ []) (hE : rs.length ≤ 4 * 10 ^ 5) (pl : Bool) (ctor : Nat → Nat) (hf : ∀ r ∈ rs, 5 * (L * L) < r.fuel) {header : Text} (hh : '\n' ∉ header)
    (n : Int) :
    ∃ (data : List (List Dbl)) (crit : List (CritRow Dbl)) (T C : List (List ℚ)) (table : List (List ℝ)) (rows : List (CritRow ℝ)),
      runEnsemble ⟨so, Dbl.arith lg⟩ v pl L ctor rs = .ok (data, crit) ∧ runEnsembleThreads ⟨so, Dbl.arith lg⟩ v L ctor rs = .ok data ∧
      readTable (saveWith Dbl.fmt header ((FileData.table n data).rows ⟨so, Dbl.arith lg⟩)) = some T ∧
      readTable (saveWith Dbl.fmt header ((FileData.critical n crit).rows ⟨so, Dbl.arith lg⟩)) = some C ∧
      runEnsemble (realEnv so') v pl L ctor rs = .ok (table, rows) ∧ runEnsembleThreads (realEnv so') v L ctor rs = .ok table ∧
      (∀ k < L * L, |fileEntry T k 0 - ((k + 1 : Nat) : ℝ) / (L * L : Nat)| ≤ 1 / 10 ^ 9 * (((k + 1 : Nat) : ℝ) / (L * L : Nat))) ∧
      (∀ k < L * L, ∀ c, 1 ≤ c → c < 4 → |fileEntry T k c - entry table k c| ≤ fileTol L * colRange L c) ∧
      List.Forall₂ (fun (row : List ℚ) (r : CritRow ℝ) => ∃ p : ℚ, row = [p, (r.sites : ℚ), (r.bonds : ℚ)] ∧ |(p : ℝ) - r.pc| ≤ 1 / 10 ^ 10 * r.pc ∧ r.pc ≤ 1) C rows := by
  have hLL : L * L ≤ 10 ^ 8 := by
    have := Nat.mul_le_mul hL hL
    omega
  obtain ⟨qs, O, O'⟩ := C107_same_orders ⟨so, Dbl.arith lg⟩ (realEnv so') hv hL0 ctor hne hf
  have F := fitsE_ieee (L := L) (E := rs.length) hL0 (hL.trans (by norm_num)) (List.length_pos_iff.2 hne) (hE.trans (by norm_num))
  obtain ⟨data, crit, T, C, q1, q2, q3, q4, q5, q6, q7, q8⟩ := C89_files_of (env := ⟨so, Dbl.arith lg⟩) (N := 2 ^ 53) hv F (Dbl.rounded half_le hlg)
    (by omega) (by omega) (Dbl.gradual half_le) (fun x hx => Dbl.prints hx) pl ctor hf hh n O
  obtain ⟨table, rows, r1, r2, r3, r4⟩ := exact_table hv hL0 pl ctor hne hf O'
  refine ⟨data, crit, T, C, table, rows, q3, q4, q5, q6, r1, r2, fun k hk => ?_, fun k hk c hc1 hc4 => ?_, ?_⟩
  · obtain ⟨p, h, a, b, e, b1, _⟩ := q7.row k hk
    simp only [fileEntry, List.getD_eq_getElem?_getD, e, Option.getD_some]
    refine b1.trans (mul_le_mul_of_nonneg_right ?_ (by positivity))
    exact (eta_ieee hE).trans (by norm_num)
  · obtain ⟨p, h, a, b, e, _, b1, b2, b3⟩ := q7.row k hk
    obtain ⟨t1, t2, t3⟩ := r3 k hk
    obtain rfl | rfl | rfl : c = 1 ∨ c = 2 ∨ c = 3 := by omega
    · rw [t1, colRange, if_pos rfl]
      simp only [fileEntry, List.getD_eq_getElem?_getD, e, Option.getD_some]
      exact b1.trans (tol_entropy hL0 hE hk)
    · rw [t2, colRange, if_neg (by decide), mul_one]
      simp only [fileEntry, List.getD_eq_getElem?_getD, e, Option.getD_some]
      exact b2.trans (tol_order hE)
    · rw [t3, colRange, if_neg (by decide), mul_one]
      simp only [fileEntry, List.getD_eq_getElem?_getD, e, Option.getD_some]
      exact b3.trans (tol_order hE)
  · have hC := q8 (by omega)
    rw [List.forall₂_iff_get] at hC r4 ⊢
    refine ⟨hC.1.symm.trans r4.1, fun i h1 h2 => ?_⟩
    obtain ⟨p, r, c1, c2, c3⟩ := hC.2 i (by rw [hC.1]; exact h1) h1
    have hr := c1.unique (r4.2 i (by rw [hC.1]; exact h1) h2)
    rw [← hr]
    have hq := q2 _ (List.get_mem qs ⟨i, by rw [hC.1]; exact h1⟩)
    have h01 : 0 ≤ r.pc ∧ r.pc ≤ 1 := by
      rw [CritOf] at c1
      split at c1
      · obtain ⟨pre, k, post, g, _, _, g1, _⟩ := c1
        have hlen := hq.length_eq
        rw [g, List.length_append, List.length_cons, List.length_range] at hlen
        have hN : (0 : ℝ) < (L * L : Nat) := by exact_mod_cast Nat.mul_pos hL0 hL0
        rw [g1]
        exact ⟨by positivity, by rw [div_le_one hN]; exact_mod_cast (by omega : pre.length + 1 ≤ L * L)⟩
      · rw [c1.1]
        norm_num
    refine ⟨p, c2, c3.trans (mul_le_mul_of_nonneg_right ?_ h01.1), h01.2⟩
    unfold printErr; norm_num

/-! ### With the statistical error -/

/-- The mean of the first column of the file of critical values. -/
noncomputable def filePc (C : List (List ℚ)) : ℝ := (C.map fun row => ((row.getD 0 0 : ℚ) : ℝ)).sum / C.length

theorem filePc_near {C : List (List ℚ)} {rows : List (CritRow ℝ)} {η : ℝ} (hη : 0 ≤ η)
    (h : List.Forall₂ (fun (row : List ℚ) (r : CritRow ℝ) => ∃ p : ℚ, row = [p, (r.sites : ℚ), (r.bonds : ℚ)] ∧ |(p : ℝ) - r.pc| ≤ η * r.pc ∧ r.pc ≤ 1)
      C rows) : |filePc C - meanPc rows| ≤ η := by
  have hs : |(C.map fun row => ((row.getD 0 0 : ℚ) : ℝ)).sum - (rows.map (·.pc)).sum| ≤ η * rows.length := by
    induction h with
    | nil => simp
    | cons h _ ih =>
      obtain ⟨p, rfl, hp, h1⟩ := h
      have hp' := hp.trans (mul_le_mul_of_nonneg_left h1 hη)
      rw [List.map_cons, List.map_cons, List.sum_cons, List.sum_cons, List.length_cons, Nat.cast_add, Nat.cast_one, mul_add, add_comm (η * _)]
      refine le_trans (le_of_eq ?_) ((abs_add_le _ _).trans (add_le_add hp' ih))
      congr 1
      show (p : ℝ) + _ - _ = _
      ring
  unfold filePc meanPc
  rw [h.length_eq, ← sub_div, abs_div, abs_of_nonneg (Nat.cast_nonneg rows.length : (0 : ℝ) ≤ _)]
  exact div_le_of_le_mul₀ (Nat.cast_nonneg _) hη hs

/-- An entry of the file that is off by more than `ε` and the tolerance comes from an entry of the exact table that is off by `ε`. -/
theorem off_of_off {a b m ε η w : ℝ} (h : |a - b| ≤ η * w) (ho : (ε + η) * w ≤ |a - m|) : ε * w ≤ |b - m| := by
  have := abs_add_le (a - b) (b - m)
  rw [show a - b + (b - m) = a - m by ring] at this
  linarith

theorem off_one {a b m ε η : ℝ} (h : |a - b| ≤ η) (ho : ε + η ≤ |a - m|) : ε ≤ |b - m| := by
  have := off_of_off (a := a) (b := b) (m := m) (ε := ε) (η := η) (w := 1) (by rw [mul_one]; exact h) (by rw [mul_one]; exact ho)
  rwa [mul_one] at this

/-- C107 for L0: the program with Python's floats, `L ≤ 10⁴` and `E ≤ 4 · 10⁵` realisations.  The fraction of the outcomes of the shuffles for which
some entry of the file of averages, read back, differs by `ε + 10⁻⁹ + 2.5 · 10⁻¹⁴ L²` times the range of its column or more from the exact average over
all configurations is at most `6 L² exp(-2Eε²)`; and the mean of the thresholds in the file of critical values differs by `ε + 10⁻¹⁰` or more from the
mean threshold with a fraction of at most `2 exp(-2Eε²)`. -/
theorem C107_l0 {lg : Dbl → Dbl} (hlg : Dbl.GoodLog lg (2⁻¹ ^ 52)) (hL0 : 0 < L) (hL : L ≤ 10 ^ 4) (hE0 : 0 < E) (hE : E ≤ 4 * 10 ^ 5) (pl : Bool)
    (ctor : Nat → Nat) (steps : Nat → Draw) {fuel : Nat} (hf : 5 * (L * L) < fuel) {header : Text} (hh : '\n' ∉ header) (n : Int) {ε : ℝ} (hε : 0 < ε) :
    ∃ (T C : (Fin E → DrawVec (L * L)) → List (List ℚ)) (m : Nat → Nat → ℝ),
      (∀ x, ∃ data crit, runEnsemble ⟨so, Dbl.arith lg⟩ .l0 pl L ctor (ensembleDraws steps fuel x) = .ok (data, crit) ∧
        runEnsembleThreads ⟨so, Dbl.arith lg⟩ .l0 L ctor (ensembleDraws steps fuel x) = .ok data ∧
        readTable (saveWith Dbl.fmt header ((FileData.table n data).rows ⟨so, Dbl.arith lg⟩)) = some (T x) ∧
        readTable (saveWith Dbl.fmt header ((FileData.critical n crit).rows ⟨so, Dbl.arith lg⟩)) = some (C x)) ∧
      (∀ k < L * L, m k 1 = micro (L * L) (k + 1) (fun T => shannon L (· ∈ T)) ∧
        m k 2 = micro (L * L) (k + 1) (fun T => ((bondComps L (· ∈ T)).sup Finset.card : ℕ) / (2 * (L * L) : Nat))) ∧
      meanOf (fun x => ind (∃ k c, k < L * L ∧ 1 ≤ c ∧ c < 4 ∧ (ε + fileTol L) * colRange L c ≤ |fileEntry (T x) k c - m k c|)) ≤
        6 * (L * L : Nat) * Real.exp (-(2 * E * ε ^ 2)) ∧
      (3 ≤ L → meanOf (fun x => ind (ε + 1 / 10 ^ 10 ≤ |filePc (C x) -
        (∑ n ∈ Finset.range (L * L), (1 - micro (L * L) n fun T => ind (Wraps L (· ∈ T)))) / (L * L : Nat)|)) ≤ 2 * Real.exp (-(2 * E * ε ^ 2))) ∧
      ∀ k c, m k c = meanOf fun y : DrawVec (L * L) => runEntry so L k c (pyShuffle y.draws (List.range (L * L))) := by
  obtain ⟨table, rows, m, h1, _, _, h4, _, h6, h7, h8⟩ := C105_l0 (so := so) hL0 hE0 pl ctor steps hf hε
  have hlen : ∀ x : Fin E → DrawVec (L * L), (ensembleDraws steps fuel x).length = E := fun x => List.length_ofFn
  have hfu : ∀ x : Fin E → DrawVec (L * L), ∀ r ∈ ensembleDraws steps fuel x, 5 * (L * L) < r.fuel := by
    intro x r hr
    obtain ⟨i, rfl⟩ := (List.mem_ofFn' _ _).1 hr
    exact hf
  choose data crit T C table' rows' g1 g2 g3 g4 g5 _ _ g7 g8 using fun x : Fin E → DrawVec (L * L) =>
    C107_exact (so := so) (so' := so) hlg (v := .l0) (by decide) hL0 hL (List.length_pos_iff.1 (by rw [hlen x]; exact hE0)) (by rw [hlen x]; exact hE)
      pl ctor (hfu x) hh n
  have e : ∀ x, table' x = table x ∧ rows' x = rows x := by
    intro x
    have := Except.ok.inj ((g5 x).symm.trans (h1 x))
    exact ⟨congrArg Prod.fst this, congrArg Prod.snd this⟩
  refine ⟨T, C, m, fun x => ⟨data x, crit x, g1 x, g2 x, g3 x, g4 x⟩, h4, le_trans (meanOf_le fun x => ind_mono ?_) h6,
    fun h3 => le_trans (meanOf_le fun x => ind_mono fun ho => ?_) (h7 h3), h8⟩
  · rintro ⟨k, c, hk, hc1, hc4, ho⟩
    have := g7 x k hk c hc1 hc4
    rw [(e x).1] at this
    exact ⟨k, c, hk, hc1, hc4, off_of_off this ho⟩
  · have := filePc_near (by norm_num) (g8 x)
    rw [(e x).2] at this
    exact off_one this ho

/-- C107 for L1 and L2, with the averages over the growth process of the specification. -/
theorem C107_l1l2 {lg : Dbl → Dbl} (hlg : Dbl.GoodLog lg (2⁻¹ ^ 52)) (hv : v = .l1 ∨ v = .l2) (hL0 : 0 < L) (hL : L ≤ 10 ^ 4) (hM : 0 < M)
    (hE0 : 0 < E) (hE : E ≤ 4 * 10 ^ 5) (pl : Bool) (ctor : Nat → Nat) (sh : Nat → Nat → Nat) {fuel : Nat} (hf : 5 * (L * L) < fuel) {header : Text}
    (hh : '\n' ∉ header) (n : Int) {ε : ℝ} (hε : 0 < ε) :
    ∃ (T C : (Fin E → Draws M (5 * (L * L))) → List (List ℚ)) (m : Nat → Nat → ℝ),
      (∀ x, ∃ data crit, runEnsemble ⟨so, Dbl.arith lg⟩ v pl L ctor (growthDraws sh fuel x) = .ok (data, crit) ∧
        runEnsembleThreads ⟨so, Dbl.arith lg⟩ v L ctor (growthDraws sh fuel x) = .ok data ∧
        readTable (saveWith Dbl.fmt header ((FileData.table n data).rows ⟨so, Dbl.arith lg⟩)) = some (T x) ∧
        readTable (saveWith Dbl.fmt header ((FileData.critical n crit).rows ⟨so, Dbl.arith lg⟩)) = some (C x)) ∧
      (∀ k < L * L, m k 1 = meanOf (fun y : Draws M (5 * (L * L)) => shannon L (· ∈ (runOrder L v.deep y).take (k + 1))) ∧
        m k 2 = meanOf fun y : Draws M (5 * (L * L)) => (seqLargest L ((runOrder L v.deep y).take (k + 1)) : ℝ) / (2 * (L * L) : Nat)) ∧
      meanOf (fun x => ind (∃ k c, k < L * L ∧ 1 ≤ c ∧ c < 4 ∧ (ε + fileTol L) * colRange L c ≤ |fileEntry (T x) k c - m k c|)) ≤
        6 * (L * L : Nat) * Real.exp (-(2 * E * ε ^ 2)) ∧
      (3 ≤ L → meanOf (fun x => ind (ε + 1 / 10 ^ 10 ≤ |filePc (C x) - meanOf fun y : Draws M (5 * (L * L)) => wrapStage L (runOrder L v.deep y)|)) ≤
        2 * Real.exp (-(2 * E * ε ^ 2))) ∧
      ∀ k c, m k c = meanOf fun y : Draws M (5 * (L * L)) => runEntry so L k c (runOrder L v.deep y) := by
  obtain ⟨table, rows, m, h1, _, _, h4, _, h6, h7, h8⟩ := C105_l1l2 (so := so) hv hL0 hM hE0 pl ctor sh hf hε
  have hv' : v ≠ .sp := by rcases hv with rfl | rfl <;> decide
  have hlen : ∀ x : Fin E → Draws M (5 * (L * L)), (growthDraws sh fuel x).length = E := fun x => List.length_ofFn
  have hfu : ∀ x : Fin E → Draws M (5 * (L * L)), ∀ r ∈ growthDraws sh fuel x, 5 * (L * L) < r.fuel := by
    intro x r hr
    obtain ⟨i, rfl⟩ := (List.mem_ofFn' _ _).1 hr
    exact hf
  choose data crit T C table' rows' g1 g2 g3 g4 g5 _ _ g7 g8 using fun x : Fin E → Draws M (5 * (L * L)) =>
    C107_exact (so := so) (so' := so) hlg hv' hL0 hL (List.length_pos_iff.1 (by rw [hlen x]; exact hE0)) (by rw [hlen x]; exact hE)
      pl ctor (hfu x) hh n
  have e : ∀ x, table' x = table x ∧ rows' x = rows x := by
    intro x
    have := Except.ok.inj ((g5 x).symm.trans (h1 x))
    exact ⟨congrArg Prod.fst this, congrArg Prod.snd this⟩
  refine ⟨T, C, m, fun x => ⟨data x, crit x, g1 x, g2 x, g3 x, g4 x⟩, h4, le_trans (meanOf_le fun x => ind_mono ?_) h6,
    fun h3 => le_trans (meanOf_le fun x => ind_mono fun ho => ?_) (h7 h3), h8⟩
  · rintro ⟨k, c, hk, hc1, hc4, ho⟩
    have := g7 x k hk c hc1 hc4
    rw [(e x).1] at this
    exact ⟨k, c, hk, hc1, hc4, off_of_off this ho⟩
  · have := filePc_near (by norm_num) (g8 x)
    rw [(e x).2] at this
    exact off_one this ho

/-- C107, a concrete case: with 2500 to 400000 realisations of L0 on a lattice of length `L = 100`, all numbers in the file of averages are within 0.06
times the range of their columns of the exact averages, except for less than one outcome in fifty. -/
theorem C107_concrete {lg : Dbl → Dbl} (hlg : Dbl.GoodLog lg (2⁻¹ ^ 52)) (hE0 : 2500 ≤ E) (hE : E ≤ 4 * 10 ^ 5) (pl : Bool) (ctor : Nat → Nat)
    (steps : Nat → Draw) {fuel : Nat} (hf : 50000 < fuel) {header : Text} (hh : '\n' ∉ header) (n : Int) :
    ∃ (T : (Fin E → DrawVec (100 * 100)) → List (List ℚ)),
      (∀ x, ∃ data crit, runEnsemble ⟨so, Dbl.arith lg⟩ .l0 pl 100 ctor (ensembleDraws steps fuel x) = .ok (data, crit) ∧
        readTable (saveWith Dbl.fmt header ((FileData.table n data).rows ⟨so, Dbl.arith lg⟩)) = some (T x)) ∧
      meanOf (fun x => ind (∃ k < 10000, Real.log 20000 * (6 / 100) ≤
          |fileEntry (T x) k 1 - micro (100 * 100) (k + 1) (fun T => shannon 100 (· ∈ T))| ∨
        6 / 100 ≤ |fileEntry (T x) k 2 - micro (100 * 100) (k + 1) (fun T => ((bondComps 100 (· ∈ T)).sup Finset.card : ℕ) / (2 * (100 * 100) : Nat))|)) ≤
        1 / 50 := by
  obtain ⟨T, C, m, h1, h2, h3, _⟩ := C107_l0 (so := so) (L := 100) hlg (by norm_num) (by norm_num) (by omega) hE pl ctor steps (by omega : 5 * (100 * 100) < fuel)
    hh n (ε := 599 / 10000) (by norm_num)
  refine ⟨T, fun x => ?_, le_trans (meanOf_le fun x => ind_mono ?_) (h3.trans ?_)⟩
  · obtain ⟨data, crit, g1, _, g3, _⟩ := h1 x
    exact ⟨data, crit, g1, g3⟩
  · have ht : (599 / 10000 : ℝ) + fileTol 100 ≤ 6 / 100 := by unfold fileTol; norm_num
    rintro ⟨k, hk, ho | ho⟩
    · refine ⟨k, 1, hk, le_rfl, by decide, ?_⟩
      rw [(h2 k hk).1, colRange, if_pos rfl]
      refine le_trans ?_ ho
      rw [mul_comm]
      have h0 : 0 ≤ Real.log 20000 := Real.log_nonneg (by norm_num)
      have := mul_le_mul_of_nonneg_left ht h0
      norm_num at this ⊢
      exact this
    · refine ⟨k, 2, hk, by decide, by decide, ?_⟩
      rw [(h2 k hk).2, colRange, if_neg (by decide), mul_one]
      exact ht.trans ho
  · have hEr : (2500 : ℝ) ≤ E := by exact_mod_cast hE0
    have h4 : Real.exp (-(2 * E * (599 / 10000) ^ 2)) ≤ Real.exp (-17) := by
      rw [Real.exp_le_exp]
      norm_num
      nlinarith
    have h5 : (6 * (100 * 100 : Nat) : ℝ) * Real.exp (-17) ≤ 1 / 50 := by
      have e1 : (2.7 : ℝ) ≤ Real.exp 1 := by have := Real.exp_one_gt_d9; linarith
      have e2 : Real.exp 17 = Real.exp 1 ^ 17 := by rw [← Real.exp_nat_mul]; norm_num
      have e3 : (3000000 : ℝ) ≤ Real.exp 17 := by
        rw [e2]
        exact le_trans (by norm_num) (pow_le_pow_left₀ (by norm_num) e1 17)
      rw [Real.exp_neg, ← div_eq_mul_inv, div_le_iff₀ (Real.exp_pos _)]
      norm_num
      linarith
    have h6 : (0 : ℝ) ≤ 6 * (100 * 100 : Nat) := by positivity
    exact (mul_le_mul_of_nonneg_left h4 h6).trans h5

/-! ### The shortest-path file -/

/-- The number of sites at the threshold of an order. -/
noncomputable def wrapNum (L : Nat) (q : List Nat) : Nat := sInf {n | Wraps L (· ∈ q.take n)}

/-- The number of sites when the wrapping cluster contains the row or column of the site just placed for the first time. -/
noncomputable def lineNum (L : Nat) (q : List Nat) : Nat := sInf {m | ∃ k, q[m]? = some k ∧ Straight L (q.take (m + 1)) k} + 1

theorem wrapNum_eq {q : List Nat} {p : Nat} (h : ∀ n, Wraps L (· ∈ q.take n) ↔ p < n) : wrapNum L q = p + 1 := by
  have : {n | Wraps L (· ∈ q.take n)} = Set.Ici (p + 1) := by
    ext n
    exact h n
  rw [wrapNum, this, csInf_Ici]

/-- The rows of the shortest-path driver in terms of the orders, in any arithmetic. -/
theorem path_orders (hL : 3 ≤ L) (rs : List RunDraws) (hf : ∀ r ∈ rs, L * L < r.fuel) :
    ∀ {S : Perc α} (crit : List (α × α)), DefReach env .sp L S →
      spEnsembleLoop env rs S crit = .ok (crit ++ (shuffleOrders S.siteIds (rs.map (·.shuffle))).map fun q =>
        (env.ar.div (env.ar.ofNat (wrapNum L q)) (env.ar.ofNat (L * L)), env.ar.div (env.ar.ofNat (lineNum L q)) (env.ar.ofNat (L * L)))) ∧
      ∀ q ∈ shuffleOrders S.siteIds (rs.map (·.shuffle)), 1 ≤ wrapNum L q ∧ wrapNum L q ≤ lineNum L q ∧ lineNum L q ≤ L * L := by
  induction rs with
  | nil => intro S crit _; exact ⟨by simp [spEnsembleLoop, shuffleOrders], by simp [shuffleOrders]⟩
  | cons r rs ih =>
    intro S crit hS
    obtain ⟨S1, e1, _⟩ := hS.live.reset r.shuffle
    have F : Fresh env .sp L S1 := .reset hS e1
    have hid := reset_siteIds hS e1
    rw [if_neg (by decide)] at hid
    obtain ⟨hp, R⟩ := F.perm rfl
    have hnd := hp.nodup_iff.2 List.nodup_range
    have hl : S1.siteIds.length = L * L := by rw [hp.length_eq, List.length_range]
    have hfr := hf r (List.mem_cons_self ..)
    obtain ⟨S2, n, e2, hn, T, h3, h4⟩ := R.spRunOnce hnd F.trace (fuel := r.fuel) (by rw [hl]; exact hfr)
    obtain ⟨V, b, hV, hV'⟩ := spRunOnce_inv e2
    have hids : S2.siteIds = S1.siteIds := by
      have := spLoop_siteIds r.fuel F.trace hV
      rw [hV']; exact this
    obtain ⟨S'', e', hs, _⟩ := C41_found hL F hfr
    rw [e2] at e'
    obtain rfl := Except.ok.inj e'
    have e2' : S1.runOnceV env .sp r.fuel r.steps = .ok S2 := e2
    have D2 : DefReach env .sp L S2 := .step (.runOnce r.fuel r.steps) rfl F.defReach e2'
    obtain ⟨i1, i2⟩ := ih (fun r hr => hf r (List.mem_cons_of_mem _ hr)) (crit ++ [(S2.getPc env, S2.shortestP)]) D2
    rw [hids, hid] at i1 i2
    rcases h4 with ⟨_, g2, g3, k, hk, g4⟩ | ⟨g1, _⟩
    swap
    · rw [hs] at g1; cases g1
    obtain ⟨m, _, _, _, _, g⟩ := T.pc_nums g4.1
    have hline : lineNum L S1.siteIds = n := by
      have hmem : n - 1 ∈ {m | ∃ k, S1.siteIds[m]? = some k ∧ Straight L (S1.siteIds.take (m + 1)) k} := ⟨k, hk, by rwa [Nat.sub_add_cancel g3]⟩
      have : sInf {m | ∃ k, S1.siteIds[m]? = some k ∧ Straight L (S1.siteIds.take (m + 1)) k} = n - 1 := by
        refine le_antisymm (Nat.sInf_le hmem) ?_
        obtain ⟨k', k1, k2⟩ := Nat.sInf_mem ⟨_, hmem⟩
        by_contra hlt
        exact h3 _ k' (by omega) k1 k2
      rw [lineNum, this, Nat.sub_add_cancel g3]
    obtain ⟨pre, k', post, w1, w2, w3, w4, _⟩ := (C21_critical_values hL T).1 g4.1.2
    obtain ⟨post', hq⟩ : ∃ post', S1.siteIds = pre ++ k' :: post' := ⟨post ++ S1.siteIds.drop n, by
      conv_lhs => rw [← List.take_append_drop n S1.siteIds, w1]
      simp⟩
    have hwr : ∀ j, Wraps L (· ∈ S1.siteIds.take j) ↔ pre.length < j := by
      intro j
      constructor
      · intro hw
        by_contra hj
        refine w2 (hw.mono fun s hs => ?_)
        rw [hq, List.take_append_of_le_length (by omega)] at hs
        exact List.mem_of_mem_take hs
      · intro hj
        refine Wraps.mono (fun s hs => ?_) ⟨k', w3⟩
        have : pre ++ [k'] <+: S1.siteIds.take j := by
          refine List.prefix_of_prefix_length_le (l₃ := S1.siteIds) ⟨post', by rw [hq]; simp⟩ (List.take_prefix _ _) ?_
          rw [List.length_take, List.length_append, List.length_singleton]
          have : pre.length + 1 ≤ S1.siteIds.length := by rw [hq]; simp
          omega
        exact this.subset hs
    have hwn := wrapNum_eq hwr
    have hpl : pre.length + 1 ≤ n := by
      have := congrArg List.length w1
      rw [List.length_take, List.length_append, List.length_cons] at this
      omega
    rw [List.map_cons, shuffleOrders]
    refine ⟨?_, ?_⟩
    · simp only [spEnsembleLoop]
      rw [Realised.step e1 e2']
      show spEnsembleLoop env rs S2 _ = _
      rw [i1, w4, g2, g, List.length_take, Nat.min_eq_left hn, List.map_cons, ← hid, hline, hwn]
      simp
    · intro q hq'
      rcases List.mem_cons.1 hq' with rfl | hq'
      · rw [← hid, hline, hwn]
        omega
      · exact i2 q hq'

/-- C107 for the shortest-path class: each line of its file, read back, next to the values of exact arithmetic for the same random numbers. -/
theorem C107_path_exact {so' : SetOrder} {lg : Dbl → Dbl} (hlg : Dbl.GoodLog lg (2⁻¹ ^ 52)) (hL3 : 3 ≤ L) (hL : L ≤ 10 ^ 4) (ctor : Nat → Nat)
    {rs : List RunDraws} (hf : ∀ r ∈ rs, L * L < r.fuel) {header : Text} (hh : '\n' ∉ header) (n : Int) :
    ∃ rows T vals, spEnsemble ⟨so, Dbl.arith lg⟩ L ctor rs = .ok rows ∧
      readTable (saveWith Dbl.fmt header ((FileData.path n rows).rows ⟨so, Dbl.arith lg⟩)) = some T ∧
      spEnsemble (realEnv so') L ctor rs = .ok vals ∧
      List.Forall₂ (fun (row : List ℚ) (r : ℝ × ℝ) => ∃ p s : ℚ, row = [p, s] ∧ |(p : ℝ) - r.1| ≤ 1 / 10 ^ 10 * r.1 ∧ |(s : ℝ) - r.2| ≤ 1 / 10 ^ 10 * r.2 ∧
        r.1 ≤ 1 ∧ r.2 ≤ 1) T vals := by
  have hN0 : 0 < L * L := Nat.mul_pos (by omega) (by omega)
  have hN : (0 : ℝ) < (L * L : Nat) := by exact_mod_cast hN0
  have hLL : L * L ≤ 10 ^ 8 := by
    have := Nat.mul_le_mul hL hL
    omega
  have F := fits_ieee (L := L) (by omega) (hL.trans (by norm_num))
  have R := Dbl.rounded half_le hlg
  have G := Dbl.gradual (lg := lg) half_le
  have key : ∀ {β : Type} (e : Env β), spEnsemble e L ctor rs = .ok ((shuffleOrders (pyShuffle ctor (List.range (L * L))) (rs.map (·.shuffle))).map fun q =>
        (e.ar.div (e.ar.ofNat (wrapNum L q)) (e.ar.ofNat (L * L)), e.ar.div (e.ar.ofNat (lineNum L q)) (e.ar.ofNat (L * L)))) ∧
      ∀ q ∈ shuffleOrders (pyShuffle ctor (List.range (L * L))) (rs.map (·.shuffle)), 1 ≤ wrapNum L q ∧ wrapNum L q ≤ lineNum L q ∧ lineNum L q ≤ L * L := by
    intro β e
    obtain ⟨S0, e0, F0⟩ := fresh_exists e .sp (L := L) (by omega) ctor
    have hids : S0.siteIds = pyShuffle ctor (List.range (L * L)) := by
      obtain ⟨rev, e', _⟩ := new_ok e (by omega : 0 < L) ctor
      rw [e'] at e0
      rw [← Except.ok.inj e0]
    have := path_orders (env := e) hL3 rs hf [] F0.defReach
    rw [hids, List.nil_append] at this
    refine ⟨?_, this.2⟩
    simp only [spEnsemble]
    rw [e0]
    exact this.1
  obtain ⟨k1, k2⟩ := key ⟨so, Dbl.arith lg⟩
  generalize shuffleOrders (pyShuffle ctor (List.range (L * L))) (rs.map (·.shuffle)) = qs at key k1 k2
  refine ⟨_, _, _, k1, readTable_saveWith (sh := fun x => shown x.val) hh ?_ ?_, (key (realEnv so')).1, ?_⟩
  · intro row hr
    obtain ⟨r, _, rfl⟩ := List.mem_map.1 hr
    exact List.cons_ne_nil _ _
  · intro row hr y hy
    simp only [FileData.rows, List.map_map, List.mem_map, Function.comp_apply] at hr
    obtain ⟨q, hq, rfl⟩ := hr
    obtain ⟨g1, g2, g3⟩ := k2 q hq
    simp only [List.mem_cons, List.not_mem_nil, or_false] at hy
    rcases hy with rfl | rfl
    · exact Dbl.prints (frac_err (env := ⟨so, Dbl.arith lg⟩) F R G hN0 (by omega) (by omega) (by omega)).1
    · exact Dbl.prints (frac_err (env := ⟨so, Dbl.arith lg⟩) F R G hN0 g3 (by omega) (by omega)).1
  · simp only [FileData.rows, List.map_map]
    rw [List.forall₂_map_left_iff, List.forall₂_map_right_iff, List.forall₂_same]
    intro q hq
    obtain ⟨g1, g2, g3⟩ := k2 q hq
    have near : ∀ m : Nat, 1 ≤ m → m ≤ L * L → |((shown ((Dbl.arith lg).div ((Dbl.arith lg).ofNat m) ((Dbl.arith lg).ofNat (L * L))).val : ℚ) : ℝ) -
        (m : ℝ) / (L * L : Nat)| ≤ 1 / 10 ^ 10 * ((m : ℝ) / (L * L : Nat)) ∧ (m : ℝ) / (L * L : Nat) ≤ 1 := by
      intro m hm1 hm2
      have h := shown_near ((frac_err (env := ⟨so, Dbl.arith lg⟩) F R G hN0 hm2 (by omega) (by omega)).2.2 hm1)
      have h0 : 0 ≤ (m : ℝ) / (L * L : Nat) := by positivity
      rw [abs_of_nonneg h0] at h
      refine ⟨h.trans ?_, by rw [div_le_one hN]; exact_mod_cast hm2⟩
      rw [← mul_assoc, ← add_mul]
      refine mul_le_mul_of_nonneg_right ?_ h0
      unfold printErr; norm_num
    exact ⟨_, _, rfl, (near _ g1 (by omega)).1, (near _ (by omega) g3).1, (near _ g1 (by omega)).2, (near _ (by omega) g3).2⟩

/-- The mean of column `c` of a file. -/
noncomputable def fileMean (T : List (List ℚ)) (c : Nat) : ℝ := (T.map fun row => ((row.getD c 0 : ℚ) : ℝ)).sum / T.length

theorem mean_near {A B : Type} {l : List A} {l' : List B} {f : A → ℝ} {g : B → ℝ} {η : ℝ} (hη : 0 ≤ η)
    (h : List.Forall₂ (fun a b => |f a - g b| ≤ η) l l') : |(l.map f).sum / l.length - (l'.map g).sum / l'.length| ≤ η := by
  have hs : |(l.map f).sum - (l'.map g).sum| ≤ η * l'.length := by
    induction h with
    | nil => simp
    | cons h _ ih =>
      rw [List.map_cons, List.map_cons, List.sum_cons, List.sum_cons, List.length_cons, Nat.cast_add, Nat.cast_one, mul_add, add_comm (η * _), mul_one]
      refine le_trans (le_of_eq ?_) ((abs_add_le _ _).trans (add_le_add h ih))
      congr 1
      ring
  rw [h.length_eq, ← sub_div, abs_div, abs_of_nonneg (Nat.cast_nonneg l'.length : (0 : ℝ) ≤ _)]
  exact div_le_of_le_mul₀ (Nat.cast_nonneg _) hη hs

/-- C107 for the shortest-path class: the means of the columns of its file, read back. -/
theorem C107_shortest_path {lg : Dbl → Dbl} (hlg : Dbl.GoodLog lg (2⁻¹ ^ 52)) (hL3 : 3 ≤ L) (hL : L ≤ 10 ^ 4) (hE : 0 < E) (ctor : Nat → Nat)
    (steps : Nat → Draw) {fuel : Nat} (hf : L * L < fuel) {header : Text} (hh : '\n' ∉ header) (n : Int) {ε : ℝ} (hε : 0 < ε) :
    ∃ T : (Fin E → DrawVec (L * L)) → List (List ℚ),
      (∀ x, ∃ rows, spEnsemble ⟨so, Dbl.arith lg⟩ L ctor (ensembleDraws steps fuel x) = .ok rows ∧
        readTable (saveWith Dbl.fmt header ((FileData.path n rows).rows ⟨so, Dbl.arith lg⟩)) = some (T x)) ∧
      meanOf (fun x => ind (ε + 1 / 10 ^ 10 ≤ |fileMean (T x) 0 -
        (∑ n ∈ Finset.range (L * L), (1 - micro (L * L) n fun T => ind (Wraps L (· ∈ T)))) / (L * L : Nat)|)) ≤ 2 * Real.exp (-(2 * E * ε ^ 2)) ∧
      meanOf (fun x => ind (ε + 1 / 10 ^ 10 ≤ |fileMean (T x) 1 -
        meanOf fun y : DrawVec (L * L) => spStage L (pyShuffle y.draws (List.range (L * L)))|)) ≤ 2 * Real.exp (-(2 * E * ε ^ 2)) := by
  obtain ⟨vals, h1, h2, h3⟩ := C105_shortest_path (so := so) hL3 hE ctor steps hf hε
  have hfu : ∀ x : Fin E → DrawVec (L * L), ∀ r ∈ ensembleDraws steps fuel x, L * L < r.fuel := by
    intro x r hr
    obtain ⟨i, rfl⟩ := (List.mem_ofFn' _ _).1 hr
    exact hf
  choose rows T vals' g1 g2 g3 g4 using fun x : Fin E → DrawVec (L * L) =>
    C107_path_exact (so := so) (so' := so) hlg hL3 hL ctor (hfu x) hh n
  have e : vals' = vals := funext fun x => Except.ok.inj ((g3 x).symm.trans (h1 x))
  rw [e] at g4
  have near0 : ∀ x, |fileMean (T x) 0 - ((vals x).map (·.1)).sum / (vals x).length| ≤ 1 / 10 ^ 10 := fun x => mean_near (by norm_num) ((g4 x).imp (by
    rintro row r ⟨p, s, rfl, b1, b2, b3, b4⟩
    show |(p : ℝ) - r.1| ≤ _
    exact b1.trans (by linarith)))
  have near1 : ∀ x, |fileMean (T x) 1 - ((vals x).map (·.2)).sum / (vals x).length| ≤ 1 / 10 ^ 10 := fun x => mean_near (by norm_num) ((g4 x).imp (by
    rintro row r ⟨p, s, rfl, b1, b2, b3, b4⟩
    show |(s : ℝ) - r.2| ≤ _
    exact b2.trans (by linarith)))
  refine ⟨T, fun x => ⟨rows x, g1 x, g2 x⟩, le_trans (meanOf_le fun x => ind_mono fun ho => ?_) h2, le_trans (meanOf_le fun x => ind_mono fun ho => ?_) h3⟩
  · exact off_one (near0 x) ho
  · exact off_one (near1 x) ho

/-- The hypotheses are met, for instance with the correctly rounded logarithm: three realisations of the shortest-path class on the `20 × 20` lattice. -/
example (x : Fin 3 → DrawVec (20 * 20)) : ∃ rows T, spEnsemble ⟨demoSet, Dbl.arith Dbl.logRound⟩ 20 (fun _ => 0)
      (ensembleDraws (fun _ => ⟨0, 0⟩) 401 x) = .ok rows ∧
    readTable (saveWith Dbl.fmt "{}".toList ((FileData.path 3 rows).rows ⟨demoSet, Dbl.arith Dbl.logRound⟩)) = some T := by
  obtain ⟨T, h, _⟩ := C107_shortest_path (so := demoSet) (L := 20) (E := 3) (Dbl.logRound_good.mono half_le) (by norm_num) (by norm_num) (by norm_num)
    (fun _ => 0) (fun _ => ⟨0, 0⟩) (fuel := 401) (by norm_num) (header := "{}".toList) (by decide +kernel) 3 (ε := 1) one_pos
  obtain ⟨rows, h1, h2⟩ := h x
  exact ⟨rows, _, h1, h2⟩

/-- The concrete case with the correctly rounded logarithm. -/
example : ∃ T : (Fin 2500 → DrawVec (100 * 100)) → List (List ℚ), ∀ x, ∃ data crit, runEnsemble ⟨demoSet, Dbl.arith Dbl.logRound⟩ .l0 false 100 (fun _ => 0)
    (ensembleDraws (fun _ => ⟨0, 0⟩) 50001 x) = .ok (data, crit) ∧
    readTable (saveWith Dbl.fmt "{}".toList ((FileData.table 2500 data).rows ⟨demoSet, Dbl.arith Dbl.logRound⟩)) = some (T x) := by
  obtain ⟨T, h, _⟩ := C107_concrete (so := demoSet) (E := 2500) (Dbl.logRound_good.mono half_le) le_rfl (by norm_num) false (fun _ => 0) (fun _ => ⟨0, 0⟩)
    (fuel := 50001) (by norm_num) (header := "{}".toList) (by decide +kernel) 2500
  exact ⟨T, h⟩

end SqPerc
