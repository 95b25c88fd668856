import Verif.Proof.Decimal
import Verif.Props.TableRounding
import Verif.Props.SpDrivers
import Mathlib.Algebra.Order.Round
/-
Property C89: the numbers in the table files.
-/
namespace SqPerc

section number
variable {K : Type} [Field K] [LinearOrder K] [IsStrictOrderedRing K] [FloorRing K]

/-- Decimal numbers with at most eleven significant digits. -/
def Decimal11 (d : K) : Prop := ∃ n j : Int, n.natAbs < 10 ^ 11 ∧ d = n * 10 ^ j

theorem roundEven_nearest (y : K) (n : Int) : |(roundEven y : K) - y| ≤ |(n : K) - y| := by
  rcases eq_or_ne n (roundEven y) with rfl | hne
  · exact le_rfl
  · have h1 := roundEven_err y
    have h2 : (1 : K) ≤ |(n : K) - roundEven y| := by
      rw [← Int.cast_sub, ← Int.cast_abs]
      exact_mod_cast Int.one_le_abs (sub_ne_zero.2 hne)
    have h3 := abs_sub_le (n : K) y (roundEven y)
    rw [abs_sub_comm y] at h3
    linarith

theorem shownPos_nearest {x : K} (hx : 0 < x) {d : K} (hd : Decimal11 d) : |(shownPos x : K) - x| ≤ |d - x| := by
  have h1 : (10 : K) ^ Int.log 10 x ≤ x := by exact_mod_cast Int.zpow_log_le_self (b := 10) (by norm_num) hx
  obtain ⟨e, he⟩ : ∃ e, e = Int.log 10 x := ⟨_, rfl⟩
  have hten : (10 : K) ≠ 0 := by norm_num
  have hp : (0 : K) < 10 ^ (e - 10) := by positivity
  have e1 : x * 10 ^ (10 - e) * 10 ^ (e - 10) = x := by
    rw [mul_assoc, ← zpow_add₀ hten, show 10 - e + (e - 10) = 0 by ring, zpow_zero, mul_one]
  -- no multiple of the last unit is nearer
  have key : ∀ n : Int, |(shownPos x : K) - x| ≤ |(n : K) * 10 ^ (e - 10) - x| := by
    intro n
    have h2 := roundEven_nearest (x * 10 ^ (10 - Int.log 10 x)) n
    rw [show roundEven (x * 10 ^ (10 - Int.log 10 x)) = sciUnits x from rfl] at h2
    rw [shownPos_eq hx]
    push_cast
    rw [← he] at h2 ⊢
    have e2 : ∀ y : K, y * 10 ^ (e - 10) - x = (y - x * 10 ^ (10 - e)) * 10 ^ (e - 10) := by
      intro y; rw [sub_mul, e1]
    rw [e2, e2, abs_mul, abs_mul]
    exact mul_le_mul_of_nonneg_right h2 (abs_nonneg _)
  rw [← he] at h1
  obtain ⟨n, j, hn, rfl⟩ := hd
  rcases le_or_gt (e - 10) j with hj | hj
  · obtain ⟨k, hk⟩ : ∃ k : Nat, (k : Int) = j - (e - 10) := ⟨(j - (e - 10)).toNat, by omega⟩
    have := key (n * 10 ^ k)
    have e3 : ((n * 10 ^ k : Int) : K) * 10 ^ (e - 10) = n * 10 ^ j := by
      push_cast
      rw [mul_assoc, ← zpow_natCast, ← zpow_add₀ hten, hk, sub_add_cancel]
    rwa [e3] at this
  · -- the decimal is below the leading digit
    have h2 := key (10 ^ 10)
    have e3 : ((10 ^ 10 : Int) : K) * 10 ^ (e - 10) = 10 ^ e := by
      have e4 : ((10 ^ 10 : Int) : K) = 10 ^ (10 : Int) := by norm_cast
      rw [e4, ← zpow_add₀ hten, add_sub_cancel]
    rw [e3] at h2
    have hn' : (n : K) < 10 ^ 11 := by
      have : n < 10 ^ 11 := by omega
      exact_mod_cast this
    have h3 : (n : K) * 10 ^ j < 10 ^ e := by
      calc (n : K) * 10 ^ j < 10 ^ 11 * 10 ^ j := mul_lt_mul_of_pos_right hn' (by positivity)
        _ = 10 ^ (11 + j) := by rw [zpow_add₀ hten]; norm_cast
        _ ≤ 10 ^ e := zpow_le_zpow_right₀ (by norm_num) (by omega)
    refine h2.trans ?_
    rw [abs_of_nonpos (by linarith), abs_of_nonpos (by linarith)]
    linarith

omit [LinearOrder K] [IsStrictOrderedRing K] [FloorRing K] in
theorem Decimal11.neg {d : K} (h : Decimal11 d) : Decimal11 (-d) := by
  obtain ⟨n, j, h1, rfl⟩ := h
  exact ⟨-n, j, by rwa [Int.natAbs_neg], by push_cast; ring⟩

/-- C89: what `%.10e` prints for `x` reads back as a number `q` with at most eleven significant digits, none of which is nearer to `x`; the error is
at most `|x| / (2 · 10¹⁰)`; the sign is right, and only 0 is printed as 0. -/
theorem C89_number (x : K) : ∃ q : ℚ, readDecimal (fmtE x) = some q ∧ Decimal11 q ∧ |(q : K) - x| ≤ |x| / (2 * 10 ^ 10) ∧
    (∀ d : K, Decimal11 d → |(q : K) - x| ≤ |d - x|) ∧ (q = 0 ↔ x = 0) ∧ (0 < q ↔ 0 < x) := by
  refine ⟨shown x, readDecimal_fmtE x, ?_, shown_err x, ?_, shown_eq_zero, shown_pos⟩
  · have hd : ∀ y : K, 0 < y → Decimal11 (shownPos y) := fun y hy =>
      ⟨(sciParts y).1, (sciParts y).2 - 10, by rw [Int.natAbs_natCast]; exact (sciParts_digits hy).2, by rw [shownPos]; push_cast; rfl⟩
    unfold shown
    split
    · exact (hd _ (by linarith)).neg
    · split
      · exact ⟨0, 0, by norm_num, by simp⟩
      · next h1 h2 => exact hd _ (lt_of_le_of_ne (not_lt.1 h1) (Ne.symm h2))
  · intro d hd
    unfold shown
    split
    · next h =>
      have := shownPos_nearest (x := -x) (by linarith) hd.neg
      push_cast
      rwa [← abs_neg, show -(-(shownPos (-x) : K) - x) = (shownPos (-x) : K) - -x by ring, ← abs_neg (d - x), show -(d - x) = -d - -x by ring]
    · split
      · next h => simp [h]
      · next h1 h2 => exact shownPos_nearest (lt_of_le_of_ne (not_lt.1 h1) (Ne.symm h2)) hd

/-- C89: numbers with at most eleven significant digits are printed exactly. -/
theorem C89_exact {x : K} (h : Decimal11 x) : ∃ q : ℚ, readDecimal (fmtE x) = some q ∧ (q : K) = x := by
  obtain ⟨n, j, h1, h2⟩ := h
  exact ⟨_, readDecimal_fmtE x, shown_exact h1 h2⟩

/-- C89: printing preserves the order. -/
theorem C89_monotone {x y : K} (h : x ≤ y) {q r : ℚ} (hq : readDecimal (fmtE x) = some q) (hr : readDecimal (fmtE y) = some r) : q ≤ r := by
  rw [readDecimal_fmtE, Option.some.injEq] at hq hr
  rw [← hq, ← hr]
  exact shown_mono h

/-- C89: a table file read back: as many rows and columns as the array, every number the printed one. -/
theorem C89_table {header : Text} (hh : '\n' ∉ header) {rows : List (List K)} (hr : ∀ row ∈ rows, row ≠ []) :
    ∃ T, readTable (saveText header rows) = some T ∧
      List.Forall₂ (List.Forall₂ fun (q : ℚ) (x : K) => readDecimal (fmtE x) = some q) T rows := by
  refine ⟨_, readTable_saveText hh hr, ?_⟩
  rw [List.forall₂_map_left_iff, List.forall₂_same]
  intro row _
  rw [List.forall₂_map_left_iff, List.forall₂_same]
  exact fun x _ => readDecimal_fmtE x

end number

-- samples
example : fmtE (1 / 3 : ℚ) = "3.3333333333e-01".toList ∧ fmtE (-2000 / 3 : ℚ) = "-6.6666666667e+02".toList ∧
    fmtE (1 / 1024 : ℚ) = "9.7656250000e-04".toList ∧ fmtE (999999999999 : ℚ) = "1.0000000000e+12".toList ∧
    fmtE (100000000005 : ℚ) = "1.0000000000e+11".toList ∧ fmtE (100000000015 : ℚ) = "1.0000000002e+11".toList := by decide +kernel

example : saveText "{\"L\": 2}".toList [[(1 / 4 : ℚ), 0], [1 / 2, 7 / 5]] =
    "# {\"L\": 2}\n2.5000000000e-01 0.0000000000e+00\n5.0000000000e-01 1.4000000000e+00\n".toList := by decide +kernel

example : readTable (saveText "{\"L\": 2}".toList [[(1 / 4 : ℚ), 0], [1 / 2, 7 / 5]]) = some [[1 / 4, 0], [1 / 2, 7 / 5]] := by decide +kernel

/-! ### The files of the ensemble drivers -/

section files
variable {L : Nat} {v : Variant} {u lo hi : ℝ} {α : Type} {val : α → ℝ} {ok : α → Prop} {fmt : α → Text} {env : Env α} {N : Nat}

theorem siteComp_card_le {occ : Nat → Prop} {s : Nat} : (siteComp L occ s).card ≤ L * L := by
  classical
  have h : siteComp L occ s ⊆ Finset.range (L * L) := by
    intro t ht
    simp only [siteComp, Finset.mem_filter] at ht
    exact ht.1
  exact (Finset.card_le_card h).trans_eq (Finset.card_range _)

theorem bondComp_card_le {occ : Nat → Prop} {b : Nat} : (bondComp L occ b).card ≤ 2 * (L * L) := by
  classical
  have h : bondComp L occ b ⊆ Finset.range (2 * (L * L)) := by
    intro t ht
    simp only [bondComp, Finset.mem_filter] at ht
    exact ht.1
  exact (Finset.card_le_card h).trans_eq (Finset.card_range _)

/-- The relative error of printing. -/
noncomputable def printErr : ℝ := 1 / (2 * 10 ^ 10)

theorem shown_near {x z η : ℝ} (h : |x - z| ≤ η) : |(shown x : ℝ) - z| ≤ 2 * η + printErr * |z| := by
  have h1 := shown_err x
  have h2 := abs_sub_le (shown x : ℝ) x z
  have h3 := abs_sub_abs_le_abs_sub x z
  have h4 : |x| / (2 * 10 ^ 10) = printErr * |x| := by rw [printErr]; ring
  have h5 : printErr ≤ 1 := by unfold printErr; norm_num
  have h6 : 0 ≤ printErr := by unfold printErr; norm_num
  have h7 : 0 ≤ η := (abs_nonneg _).trans h
  have h8 : printErr * |x| ≤ printErr * (|z| + η) := mul_le_mul_of_nonneg_left (by linarith) h6
  nlinarith

/-- The printed table of an ensemble. -/
structure FileNear (u : ℝ) (L E : Nat) (qs : List (List Nat)) (T : List (List ℚ)) : Prop where
  length : T.length = L * L
  row : ∀ k < L * L, ∃ p h a b, T[k]? = some [p, h, a, b] ∧
    |(p : ℝ) - ((k + 1 : Nat) : ℝ) / (L * L : Nat)| ≤ (2 * (u * (2 * E + 9)) + printErr) * (((k + 1 : Nat) : ℝ) / (L * L : Nat)) ∧
    |(h : ℝ) - meanOver qs fun q => shannon L (· ∈ q.take (k + 1))| ≤
      2 * (u * (Real.log (2 * (L * L) : Nat) + 1) * (20 * (k + 2) + 2 * (E + 4))) + printErr * Real.log (2 * (L * L) : Nat) ∧
    |(a : ℝ) - meanOver qs fun q => (seqLargest L (q.take (k + 1)) : ℝ) / (2 * (L * L) : Nat)| ≤ 2 * (u * (2 * E + 9)) + printErr ∧
    |(b : ℝ) - meanOver qs fun q => (seqWrapping L (q.take (k + 1)) : ℝ) / (2 * (L * L) : Nat)| ≤ 2 * (u * (2 * E + 9)) + printErr

/-- A printed row of critical values. -/
def CritLine (u : ℝ) (L : Nat) (q : List Nat) (row : List ℚ) : Prop :=
  ∃ (p : ℚ) (r : CritRow ℝ), CritOf L q r ∧ row = [p, (r.sites : ℚ), (r.bonds : ℚ)] ∧ |(p : ℝ) - r.pc| ≤ (2 * u + printErr) * r.pc

theorem meanOver_bounds {qs : List (List Nat)} (hne : qs ≠ []) {f : List Nat → ℝ} {B : ℝ} (h : ∀ q ∈ qs, 0 ≤ f q ∧ f q ≤ B) :
    |meanOver qs f| ≤ B := by
  have hn : (0 : ℝ) < qs.length := by exact_mod_cast List.length_pos_iff.2 hne
  have hs : ∀ l : List (List Nat), (∀ q ∈ l, 0 ≤ f q ∧ f q ≤ B) → 0 ≤ (l.map f).sum ∧ (l.map f).sum ≤ l.length * B := by
    intro l
    induction l with
    | nil => intro _; simp
    | cons q l ih =>
      intro hl
      obtain ⟨i1, i2⟩ := ih fun q hq => hl q (by simp [hq])
      obtain ⟨i3, i4⟩ := hl q (by simp)
      rw [List.map_cons, List.sum_cons, List.length_cons]
      push_cast
      constructor <;> linarith
  obtain ⟨h1, h2⟩ := hs qs h
  rw [meanOver, abs_of_nonneg (div_nonneg h1 hn.le), div_le_iff₀ hn]
  linarith

/-- C89: the files of the ensemble drivers read back.  With any header line, the file of averages reads as `L²` rows of four numbers near the exact
means, and the file of critical values as one row for each realisation with the threshold up to a relative error, and with the exact numbers of
sites and bonds (as long as `2L² < 10¹¹`).  `fmt` is any way of printing that gives the eleven digits of `%.10e`. -/
theorem C89_files_of (hv : v ≠ .sp) {rs : List RunDraws} (F : FitsE u lo hi L rs.length) (R : Rounded env.ar val ok u lo hi N)
    (hBN : 2 * (L * L) ≤ N) (hEN : rs.length ≤ N) (G : Gradual env.ar val ok u lo hi) (hfmt : ∀ x, ok x → Prints fmt x (shown (val x))) (pl : Bool) (ctor : Nat → Nat)
    (hf : ∀ r ∈ rs, 5 * (L * L) < r.fuel) {header : Text} (hh : '\n' ∉ header) (n : Int)
    {qs : List (List Nat)} (O : Orders env v L ctor rs qs) :
    ∃ (data : List (List α)) (crit : List (CritRow α)) (T C : List (List ℚ)),
      qs.length = rs.length ∧ (∀ q ∈ qs, q.Perm (List.range (L * L))) ∧
      runEnsemble env v pl L ctor rs = .ok (data, crit) ∧ runEnsembleThreads env v L ctor rs = .ok data ∧
      readTable (saveWith fmt header ((FileData.table n data).rows env)) = some T ∧
      readTable (saveWith fmt header ((FileData.critical n crit).rows env)) = some C ∧
      FileNear u L rs.length qs T ∧
      (2 * (L * L) < 10 ^ 11 → List.Forall₂ (CritLine u L) qs C) := by
  obtain ⟨data, crit, h1, h2, h3, h4, h5, h6⟩ := C88_table_of hv F R hBN hEN G pl ctor hf O
  have hL := F.pos
  have hqs : qs ≠ [] := by
    intro h; rw [h] at h1; have := F.pos_E; rw [← h1] at this; simp at this
  have hp0 : 0 ≤ printErr := by unfold printErr; norm_num
  have hrow : ∀ row ∈ (FileData.table n data).rows env, row ≠ [] := by
    intro row hr
    have hr : row ∈ data := hr
    obtain ⟨i, hi, e⟩ := List.mem_iff_getElem.1 hr
    obtain ⟨_, _, _, _, e', _⟩ := h5.row i (by rw [← h5.length]; exact hi)
    rw [List.getElem?_eq_getElem hi, e, Option.some.injEq] at e'
    rw [e']
    exact List.cons_ne_nil _ _
  have hcrow : ∀ row ∈ (FileData.critical n crit).rows env, row ≠ [] := by
    intro row hr
    obtain ⟨r, _, rfl⟩ := List.mem_map.1 hr
    exact List.cons_ne_nil _ _
  have hok : ∀ row ∈ (FileData.table n data).rows env, ∀ x ∈ row, Prints fmt x (shown (val x)) := by
    intro row hr x hx
    have hr : row ∈ data := hr
    obtain ⟨i, hi, e⟩ := List.mem_iff_getElem.1 hr
    obtain ⟨_, _, _, _, e', ⟨o1, o2, o3, o4⟩, _⟩ := h5.row i (by rw [← h5.length]; exact hi)
    rw [List.getElem?_eq_getElem hi, e, Option.some.injEq] at e'
    rw [e'] at hx
    simp only [List.mem_cons, List.not_mem_nil, or_false] at hx
    rcases hx with rfl | rfl | rfl | rfl <;> exact hfmt _ ‹_›
  have hcb : ∀ {q : List Nat} {r' : CritRow ℝ}, CritOf L q r' → r'.sites ≤ L * L ∧ r'.bonds ≤ 2 * (L * L) ∧ 0 ≤ r'.pc := by
    intro q r' h
    rw [CritOf] at h
    split at h
    · obtain ⟨pre, k, post, _, _, _, g1, g2, g3⟩ := h
      exact ⟨by rw [g2]; exact siteComp_card_le, by rw [g3]; exact bondComp_card_le, by rw [g1]; positivity⟩
    · obtain ⟨g1, g2, g3⟩ := h
      exact ⟨by omega, by omega, g1.ge⟩
  have hcok : ∀ row ∈ (FileData.critical n crit).rows env, ∀ x ∈ row, Prints fmt x (shown (val x)) := by
    intro row hr x hx
    obtain ⟨r, hr', rfl⟩ := List.mem_map.1 hr
    obtain ⟨i, hi, rfl⟩ := List.mem_iff_getElem.1 hr'
    obtain ⟨r', c1, c2, _, c3, c4⟩ := h6.get (i := i) (by rw [h6.length_eq]; exact hi) hi
    obtain ⟨b1, b2, _⟩ := hcb c1
    rw [List.get_eq_getElem] at c2 c3 c4
    simp only [List.mem_cons, List.not_mem_nil, or_false] at hx
    rcases hx with rfl | rfl | rfl
    · exact hfmt _ c2
    · exact hfmt _ (R.ofNat _ (le_of_eq_of_le c3 (by omega))).1
    · exact hfmt _ (R.ofNat _ (le_of_eq_of_le c4 (by omega))).1
  refine ⟨data, crit, _, _, h1, h2, h3, h4, readTable_saveWith hh hrow hok, readTable_saveWith hh hcrow hcok, ⟨?_, ?_⟩, ?_⟩
  · show (data.map _).length = _
    rw [List.length_map, h5.length]
  · intro k hk
    obtain ⟨p, h, a, b, e, _, b1, b2, b3, b4⟩ := h5.row k hk
    have bd : ∀ q ∈ qs, _ := fun q hq => order_bounds (q := q.take (k + 1)) hL
      (((h2 q hq).nodup_iff.2 List.nodup_range).sublist (List.take_sublist _ _))
      (fun s hs => List.mem_range.1 ((h2 q hq).mem_iff.1 (List.mem_of_mem_take hs)))
    have hB : (0 : ℝ) < (2 * (L * L) : Nat) := by exact_mod_cast (by have := Nat.mul_pos hL hL; omega : 0 < 2 * (L * L))
    refine ⟨shown (val p), shown (val h), shown (val a), shown (val b), ?_, ?_, ?_, ?_, ?_⟩
    · show (data.map fun row => row.map fun x => shown (val x))[k]? = _
      rw [List.getElem?_map, e]
      rfl
    · have := shown_near b1
      rw [abs_of_nonneg (by positivity : (0 : ℝ) ≤ ((k + 1 : Nat) : ℝ) / (L * L : Nat))] at this
      linarith
    · have := shown_near b2
      have h7 : |meanOver qs fun q => shannon L (· ∈ q.take (k + 1))| ≤ Real.log (2 * (L * L) : Nat) :=
        meanOver_bounds hqs fun q hq => ⟨(bd q hq).1, (bd q hq).2.1⟩
      have := mul_le_mul_of_nonneg_left h7 hp0
      linarith
    · have := shown_near b3
      have h7 : |meanOver qs fun q => (seqLargest L (q.take (k + 1)) : ℝ) / (2 * (L * L) : Nat)| ≤ 1 :=
        meanOver_bounds hqs fun q hq => ⟨by positivity, by rw [div_le_one hB]; exact_mod_cast (bd q hq).2.2.2.1⟩
      have := mul_le_mul_of_nonneg_left h7 hp0
      linarith
    · have := shown_near b4
      have h7 : |meanOver qs fun q => (seqWrapping L (q.take (k + 1)) : ℝ) / (2 * (L * L) : Nat)| ≤ 1 :=
        meanOver_bounds hqs fun q hq => ⟨by positivity, by
          rw [div_le_one hB]; exact_mod_cast (bd q hq).2.2.1.trans (bd q hq).2.2.2.1⟩
      have := mul_le_mul_of_nonneg_left h7 hp0
      linarith
  · intro hLB
    show List.Forall₂ _ qs ((crit.map fun r => [r.pc, env.ar.ofNat r.sites, env.ar.ofNat r.bonds]).map fun row => row.map fun x => shown (val x))
    rw [List.map_map, List.forall₂_map_right_iff]
    refine h6.imp ?_
    rintro q r ⟨r', c1, c0, c2, c3, c4⟩
    obtain ⟨hs, hb, h0⟩ := hcb c1
    rw [← c3] at hs
    rw [← c4] at hb
    have hex : ∀ m : Nat, m ≤ 2 * (L * L) → shown (val (env.ar.ofNat m)) = (m : ℚ) := by
      intro m hm
      rw [(R.ofNat m (by omega)).2]
      have := shown_exact (K := ℝ) (x := (m : ℝ)) (n := m) (j := 0) (by rw [Int.natAbs_natCast]; omega) (by simp)
      exact_mod_cast this
    refine ⟨shown (val r.pc), r', c1, ?_, ?_⟩
    · show [shown (val r.pc), shown (val (env.ar.ofNat r.sites)), shown (val (env.ar.ofNat r.bonds))] = _
      rw [hex _ (by omega), hex _ hb, c3, c4]
    · have := shown_near c2
      rw [abs_of_nonneg h0] at this
      linarith

/-- C89: the same for the orders that the ensemble has. -/
theorem C89_files (hv : v ≠ .sp) {rs : List RunDraws} (F : FitsE u lo hi L rs.length) (R : Rounded env.ar val ok u lo hi N)
    (hBN : 2 * (L * L) ≤ N) (hEN : rs.length ≤ N) (G : Gradual env.ar val ok u lo hi) (hfmt : ∀ x, ok x → Prints fmt x (shown (val x))) (pl : Bool) (ctor : Nat → Nat)
    (hf : ∀ r ∈ rs, 5 * (L * L) < r.fuel) {header : Text} (hh : '\n' ∉ header) (n : Int) :
    ∃ (qs : List (List Nat)) (data : List (List α)) (crit : List (CritRow α)) (T C : List (List ℚ)),
      qs.length = rs.length ∧ (∀ q ∈ qs, q.Perm (List.range (L * L))) ∧
      runEnsemble env v pl L ctor rs = .ok (data, crit) ∧ runEnsembleThreads env v L ctor rs = .ok data ∧
      readTable (saveWith fmt header ((FileData.table n data).rows env)) = some T ∧
      readTable (saveWith fmt header ((FileData.critical n crit).rows env)) = some C ∧
      FileNear u L rs.length qs T ∧
      (2 * (L * L) < 10 ^ 11 → List.Forall₂ (CritLine u L) qs C) := by
  obtain ⟨qs, O⟩ := orders_exist (env := env) hv F.pos ctor (by intro h; have := F.pos_E; rw [h] at this; simp at this) hf
  exact ⟨qs, C89_files_of hv F R hBN hEN G hfmt pl ctor hf hh n O⟩

/-- The rows of the shortest path driver. -/
def PathLine (u : ℝ) (L : Nat) (row : List ℚ) : Prop :=
  ∃ (p s : ℚ) (m n : Nat), row = [p, s] ∧ 1 ≤ m ∧ m ≤ n ∧ n ≤ L * L ∧ p ≤ s ∧
    |(p : ℝ) - (m : ℝ) / (L * L : Nat)| ≤ (2 * u + printErr) * ((m : ℝ) / (L * L : Nat)) ∧
    |(s : ℝ) - (n : ℝ) / (L * L : Nat)| ≤ (2 * u + printErr) * ((n : ℝ) / (L * L : Nat))

/-- The loop of the shortest path driver in any arithmetic: the rows are `m / L²`, `n / L²` with `1 ≤ m ≤ n ≤ L²`. -/
theorem path_rows {α : Type} {env : Env α} (hL : 3 ≤ L) (rs : List RunDraws) (hf : ∀ r ∈ rs, L * L < r.fuel) :
    ∀ {S : Perc α} (crit : List (α × α)), DefReach env .sp L S →
    ∃ mn : List (Nat × Nat), mn.length = rs.length ∧ (∀ x ∈ mn, 1 ≤ x.1 ∧ x.1 ≤ x.2 ∧ x.2 ≤ L * L) ∧
      spEnsembleLoop env rs S crit = .ok (crit ++ mn.map fun x => (env.ar.div (env.ar.ofNat x.1) (env.ar.ofNat (L * L)),
        env.ar.div (env.ar.ofNat x.2) (env.ar.ofNat (L * L)))) := by
  induction rs with
  | nil => intro S crit _; exact ⟨[], rfl, by simp, by simp [spEnsembleLoop]⟩
  | cons r rs ih =>
    intro S crit hS
    obtain ⟨S1, e1, _⟩ := hS.live.reset r.shuffle
    have F : Fresh env .sp L S1 := .reset hS e1
    obtain ⟨S2, e2, h1, _⟩ := C41_found hL F (hf r (by simp))
    have e2' : S1.runOnceV env .sp r.fuel r.steps = .ok S2 := e2
    have D2 : DefReach env .sp L S2 := .step (.runOnce r.fuel r.steps) rfl F.defReach e2'
    obtain ⟨_, _, m, n, g1, g2, g3, _, g4, g5⟩ := C39_values F.trace e2 h1
    obtain ⟨mn, h3, h4, h5⟩ := ih (fun r hr => hf r (by simp [hr])) (crit ++ [(S2.getPc env, S2.shortestP)]) D2
    refine ⟨(m, n) :: mn, by simp [h3], ?_, ?_⟩
    · intro x hx
      rcases List.mem_cons.1 hx with rfl | hx
      · exact ⟨g1, g2, g3⟩
      · exact h4 x hx
    · simp only [spEnsembleLoop]
      rw [Realised.step e1 e2']
      show spEnsembleLoop env rs S2 _ = _
      rw [h5, g4, g5]
      simp

/-- C89: the file of the shortest path driver read back: one row for each realisation, `p_c` and `p*` up to a relative error, `p_c ≤ p*`. -/
theorem C89_path_file (hL : 3 ≤ L) (F : Fits u lo hi L) (R : Rounded env.ar val ok u lo hi N) (hBN : 2 * (L * L) ≤ N)
    (G : Gradual env.ar val ok u lo hi) (hfmt : ∀ x, ok x → Prints fmt x (shown (val x)))
    (hmono : ∀ x y z : Nat, 0 < x → x ≤ y → y ≤ z → z ≤ N →
      val (env.ar.div (env.ar.ofNat x) (env.ar.ofNat z)) ≤ val (env.ar.div (env.ar.ofNat y) (env.ar.ofNat z))) (ctor : Nat → Nat) {rs : List RunDraws}
    (hf : ∀ r ∈ rs, L * L < r.fuel) {header : Text} (hh : '\n' ∉ header) (n : Int) :
    ∃ rows T, spEnsemble env L ctor rs = .ok rows ∧ readTable (saveWith fmt header ((FileData.path n rows).rows env)) = some T ∧
      T.length = rs.length ∧ ∀ row ∈ T, PathLine u L row := by
  have hN0 : 0 < L * L := Nat.mul_pos (by omega) (by omega)
  have hN : (0 : ℝ) < (L * L : Nat) := by exact_mod_cast hN0
  obtain ⟨S0, e0, F0⟩ := fresh_exists env .sp (L := L) (by omega) ctor
  obtain ⟨mn, h1, h2, h3⟩ := path_rows hL rs hf [] F0.defReach
  refine ⟨_, _, by simp only [spEnsemble]; rw [e0]; exact h3, readTable_saveWith (sh := fun x => shown (val x)) hh ?_ ?_, ?_, ?_⟩
  · intro row hr
    obtain ⟨r, _, rfl⟩ := List.mem_map.1 hr
    exact List.cons_ne_nil _ _
  · intro row hr y hy
    simp only [FileData.rows, List.nil_append, List.map_map, List.mem_map, Function.comp_apply] at hr
    obtain ⟨x, hx, rfl⟩ := hr
    obtain ⟨g1, g2, g3⟩ := h2 x hx
    simp only [List.mem_cons, List.not_mem_nil, or_false] at hy
    rcases hy with rfl | rfl
    · exact hfmt _ (frac_err F R G hN0 (by omega) (by omega) hBN).1
    · exact hfmt _ (frac_err F R G hN0 g3 (by omega) hBN).1
  · simp [FileData.rows, h1]
  · intro row hr
    simp only [FileData.rows, List.nil_append, List.map_map, List.mem_map, Function.comp_apply] at hr
    obtain ⟨x, hx, rfl⟩ := hr
    obtain ⟨g1, g2, g3⟩ := h2 x hx
    have near : ∀ m : Nat, 1 ≤ m → m ≤ L * L → |((shown (val (env.ar.div (env.ar.ofNat m) (env.ar.ofNat (L * L)))) : ℚ) : ℝ) - (m : ℝ) / (L * L : Nat)| ≤
        (2 * u + printErr) * ((m : ℝ) / (L * L : Nat)) := by
      intro m hm1 hm2
      have := shown_near ((frac_err F R G hN0 hm2 (by omega) hBN).2.2 (by omega))
      rw [abs_of_nonneg (by positivity : (0 : ℝ) ≤ (m : ℝ) / (L * L : Nat))] at this
      linarith
    refine ⟨_, _, x.1, x.2, rfl, g1, g2, g3, shown_mono ?_, near _ g1 (by omega), near _ (by omega) g3⟩
    exact hmono _ _ _ g1 g2 g3 (by omega)

/-- C89: from a printed fraction `k / N` the numerator is recovered by rounding. -/
theorem C89_recovered {p : ℚ} {θ : ℝ} {k n : Nat} (hn : 0 < n) (hk : k ≤ n) (h : |(p : ℝ) - (k : ℝ) / n| ≤ θ * ((k : ℝ) / n)) (hθ : θ * n < 1 / 2) :
    round (p * n) = (k : Int) := by
  have hn' : (0 : ℝ) < n := by exact_mod_cast hn
  have hk' : (k : ℝ) ≤ n := by exact_mod_cast hk
  have h1 : |(p : ℝ) * n - k| < 1 / 2 := by
    have e : (p : ℝ) * n - k = ((p : ℝ) - (k : ℝ) / n) * n := by field_simp
    rw [e, abs_mul, abs_of_pos hn']
    have h2 := mul_le_mul_of_nonneg_right h hn'.le
    have e2 : θ * ((k : ℝ) / n) * n = θ * k := by field_simp
    rw [e2] at h2
    rcases le_or_gt 0 θ with h3 | h3
    · nlinarith
    · have : θ * k ≤ 0 := mul_nonpos_of_nonpos_of_nonneg h3.le (Nat.cast_nonneg k)
      linarith
  have h2 : |p * n - k| < 1 / 2 := by
    have : ((|p * n - k| : ℚ) : ℝ) < ((1 / 2 : ℚ) : ℝ) := by push_cast; exact h1
    exact_mod_cast this
  rw [round_eq, Int.floor_eq_iff]
  rw [abs_lt] at h2
  push_cast
  constructor <;> linarith [h2.1, h2.2]

end files

/-! ### Double precision -/

theorem roundBin_mono (p : Nat) {x y : ℝ} (hx : 0 < x) (h : x ≤ y) : roundBin p x ≤ roundBin p y := by
  have hy : 0 < y := hx.trans_le h
  have two : (2 : ℝ) ≠ 0 := by norm_num
  have rm : ∀ a b : ℝ, a ≤ b → round a ≤ round b := fun a b hab => by
    rw [round_eq, round_eq]; exact Int.floor_mono (by linarith)
  unfold roundBin
  rw [abs_of_pos hx, abs_of_pos hy]
  have hl : Int.log 2 x ≤ Int.log 2 y := Int.log_mono_right hx h
  have hx2 : x < (2 : ℝ) ^ (Int.log 2 x + 1) := by exact_mod_cast Int.lt_zpow_succ_log_self (b := 2) (by norm_num) x
  have hy1 : (2 : ℝ) ^ Int.log 2 y ≤ y := by exact_mod_cast Int.zpow_log_le_self (b := 2) (by norm_num) hy
  rcases eq_or_lt_of_le hl with e | hlt
  · rw [e]
    have h1 : x * 2 ^ ((p : ℤ) - Int.log 2 y) ≤ y * 2 ^ ((p : ℤ) - Int.log 2 y) := mul_le_mul_of_nonneg_right h (by positivity)
    have h2 : (round (x * 2 ^ ((p : ℤ) - Int.log 2 y)) : ℝ) ≤ round (y * 2 ^ ((p : ℤ) - Int.log 2 y)) := by exact_mod_cast rm _ _ h1
    exact mul_le_mul_of_nonneg_right h2 (by positivity)
  · have h1 : round (x * 2 ^ ((p : ℤ) - Int.log 2 x)) ≤ 2 ^ (p + 1) := by
      rw [← round_intCast (α := ℝ) (2 ^ (p + 1))]
      apply rm
      have e : (2 : ℝ) ^ (Int.log 2 x + 1) * 2 ^ ((p : ℤ) - Int.log 2 x) = ((2 ^ (p + 1) : Int) : ℝ) := by
        rw [← zpow_add₀ two, show Int.log 2 x + 1 + ((p : ℤ) - Int.log 2 x) = ((p + 1 : Nat) : Int) by push_cast; ring, zpow_natCast]
        push_cast; rfl
      rw [← e]
      exact mul_le_mul_of_nonneg_right hx2.le (by positivity)
    have h2 : 2 ^ p ≤ round (y * 2 ^ ((p : ℤ) - Int.log 2 y)) := by
      rw [← round_intCast (α := ℝ) (2 ^ p)]
      apply rm
      have e : (2 : ℝ) ^ Int.log 2 y * 2 ^ ((p : ℤ) - Int.log 2 y) = ((2 ^ p : Int) : ℝ) := by
        rw [← zpow_add₀ two, add_sub_cancel, zpow_natCast]
        push_cast; rfl
      rw [← e]
      exact mul_le_mul_of_nonneg_right hy1 (by positivity)
    have h1' : (round (x * 2 ^ ((p : ℤ) - Int.log 2 x)) : ℝ) ≤ 2 ^ (p + 1) := by exact_mod_cast h1
    have h2' : (2 : ℝ) ^ p ≤ round (y * 2 ^ ((p : ℤ) - Int.log 2 y)) := by exact_mod_cast h2
    have h3 : (2 : ℝ) ^ (Int.log 2 x + 1 - (p : ℤ)) ≤ 2 ^ (Int.log 2 y - (p : ℤ)) := zpow_le_zpow_right₀ (by norm_num) (by omega)
    calc (round (x * 2 ^ ((p : ℤ) - Int.log 2 x)) : ℝ) * 2 ^ (Int.log 2 x - (p : ℤ)) ≤ 2 ^ (p + 1) * 2 ^ (Int.log 2 x - (p : ℤ)) :=
          mul_le_mul_of_nonneg_right h1' (by positivity)
      _ = 2 ^ p * 2 ^ (Int.log 2 x + 1 - (p : ℤ)) := by
          rw [show Int.log 2 x + 1 - (p : ℤ) = (Int.log 2 x - (p : ℤ)) + 1 by ring, zpow_add_one₀ two, pow_succ]
          ring
      _ ≤ 2 ^ p * 2 ^ (Int.log 2 y - (p : ℤ)) := mul_le_mul_of_nonneg_left h3 (by positivity)
      _ ≤ round (y * 2 ^ ((p : ℤ) - Int.log 2 y)) * 2 ^ (Int.log 2 y - (p : ℤ)) := mul_le_mul_of_nonneg_right h2' (by positivity)

/-- What the files tell about `E` realisations of L0, L1, L2 in the placement orders `qs`: `T` is the table of averages, `C` that of critical
values. -/
structure FilesTell (L : Nat) (qs : List (List Nat)) (T C : List (List ℚ)) : Prop where
  length : T.length = L * L
  /-- The first column determines the number of occupied sites; the two order parameters are right up to `5 · 10⁻¹⁰`. -/
  row : ∀ k < L * L, ∃ p h a b, T[k]? = some [p, h, a, b] ∧ round (p * (L * L : Nat)) = ((k + 1 : Nat) : Int) ∧
    |(a : ℝ) - meanOver qs fun q => (seqLargest L (q.take (k + 1)) : ℝ) / (2 * (L * L) : Nat)| ≤ 5 / 10 ^ 10 ∧
    |(b : ℝ) - meanOver qs fun q => (seqWrapping L (q.take (k + 1)) : ℝ) / (2 * (L * L) : Nat)| ≤ 5 / 10 ^ 10
  /-- The critical values determine the number of sites at which the first cluster wraps, and the size of that cluster. -/
  crit : List.Forall₂ (fun q row => ∃ p : ℚ, ∃ pre k post, q = pre ++ k :: post ∧ ¬ Wraps L (· ∈ pre) ∧ Wraps L (· ∈ pre ++ [k]) ∧
    row = [p, ((siteComp L (· ∈ pre ++ [k]) k).card : ℚ), ((bondComp L (· ∈ pre ++ [k]) (bondAt L k .right)).card : ℚ)] ∧
    round (p * (L * L : Nat)) = ((pre.length + 1 : Nat) : Int)) qs C

section tell
variable {L : Nat} {v : Variant} {u lo hi : ℝ} {α : Type} {val : α → ℝ} {ok : α → Prop} {fmt : α → Text} {env : Env α} {N : Nat}

/-- C89: what the files tell, in any arithmetic that is precise enough for the numbers of sites and realisations. -/
theorem C89_tell (hv : v ≠ .sp) {rs : List RunDraws} (F : FitsE u lo hi L rs.length) (R : Rounded env.ar val ok u lo hi N)
    (hBN : 2 * (L * L) ≤ N) (hEN : rs.length ≤ N) (G : Gradual env.ar val ok u lo hi) (hfmt : ∀ x, ok x → Prints fmt x (shown (val x)))
    (hL3 : 3 ≤ L) (hL : L ≤ 10 ^ 4) (hη : 2 * (u * (2 * rs.length + 9)) + printErr ≤ 5 / 10 ^ 10) (pl : Bool) (ctor : Nat → Nat)
    (hf : ∀ r ∈ rs, 5 * (L * L) < r.fuel) {header : Text} (hh : '\n' ∉ header) (n : Int) :
    ∃ (qs : List (List Nat)) (data : List (List α)) (crit : List (CritRow α)) (T C : List (List ℚ)),
      qs.length = rs.length ∧ (∀ q ∈ qs, q.Perm (List.range (L * L))) ∧ runEnsemble env v pl L ctor rs = .ok (data, crit) ∧
      runEnsembleThreads env v L ctor rs = .ok data ∧
      readTable (saveWith fmt header ((FileData.table n data).rows env)) = some T ∧
      readTable (saveWith fmt header ((FileData.critical n crit).rows env)) = some C ∧ FilesTell L qs T C := by
  have hL0 : 0 < L := by omega
  have hN0 : 0 < L * L := Nat.mul_pos hL0 hL0
  have hLL : L * L ≤ 10 ^ 8 := by
    have := Nat.mul_le_mul hL hL
    omega
  have hLr : ((L * L : Nat) : ℝ) ≤ 10 ^ 8 := by exact_mod_cast hLL
  have hNr : (0 : ℝ) ≤ (L * L : Nat) := Nat.cast_nonneg _
  obtain ⟨qs, data, crit, T, C, q1, q2, q3, q3', q4, q5, q6, q7⟩ := C89_files hv F R hBN hEN G hfmt pl ctor hf hh n
  refine ⟨qs, data, crit, T, C, q1, q2, q3, q3', q4, q5, q6.length, ?_, ?_⟩
  · intro k hk
    obtain ⟨p, h, a, b, e, b1, _, b3, b4⟩ := q6.row k hk
    refine ⟨p, h, a, b, e, C89_recovered hN0 hk b1 ?_, b3.trans hη, b4.trans hη⟩
    have := mul_le_mul hη hLr hNr (by norm_num)
    norm_num at this ⊢
    linarith
  · have q8 := q7 (by omega)
    rw [List.forall₂_iff_zip] at q8 ⊢
    refine ⟨q8.1, ?_⟩
    intro q row hz
    obtain ⟨p, r, c1, c2, c3⟩ := q8.2 hz
    have hlen := (q2 q (List.of_mem_zip hz).1).length_eq
    rw [CritOf, if_pos hL3] at c1
    obtain ⟨pre, k, post, g1, g2, g3, g4, g5, g6⟩ := c1
    refine ⟨p, pre, k, post, g1, g2, g3, by rw [c2, g5, g6], ?_⟩
    rw [g4] at c3
    refine C89_recovered hN0 ?_ c3 ?_
    · rw [g1, List.length_append, List.length_cons, List.length_range] at hlen
      omega
    · have hε : 2 * u + printErr ≤ 5 / 10 ^ 10 := by
        refine le_trans ?_ hη
        have : u * 1 ≤ u * (2 * rs.length + 9) := mul_le_mul_of_nonneg_left (by have := Nat.cast_nonneg (α := ℝ) rs.length; linarith) F.u0
        linarith
      have := mul_le_mul hε hLr hNr (by norm_num)
      norm_num at this ⊢
      linarith

/-- C89: the same for the shortest path driver. -/
theorem C89_path_tell (hL3 : 3 ≤ L) (hL : L ≤ 10 ^ 4) (F : Fits u lo hi L) (R : Rounded env.ar val ok u lo hi N) (hBN : 2 * (L * L) ≤ N)
    (G : Gradual env.ar val ok u lo hi) (hfmt : ∀ x, ok x → Prints fmt x (shown (val x)))
    (hmono : ∀ x y z : Nat, 0 < x → x ≤ y → y ≤ z → z ≤ N →
      val (env.ar.div (env.ar.ofNat x) (env.ar.ofNat z)) ≤ val (env.ar.div (env.ar.ofNat y) (env.ar.ofNat z)))
    (hη : 2 * u + printErr ≤ 5 / 10 ^ 10) (ctor : Nat → Nat) {rs : List RunDraws}
    (hf : ∀ r ∈ rs, L * L < r.fuel) {header : Text} (hh : '\n' ∉ header) (n : Int) :
    ∃ rows T, spEnsemble env L ctor rs = .ok rows ∧
      readTable (saveWith fmt header ((FileData.path n rows).rows env)) = some T ∧ T.length = rs.length ∧
      ∀ row ∈ T, ∃ (p s : ℚ) (m n : Nat), row = [p, s] ∧ 1 ≤ m ∧ m ≤ n ∧ n ≤ L * L ∧ p ≤ s ∧
        round (p * (L * L : Nat)) = (m : Int) ∧ round (s * (L * L : Nat)) = (n : Int) := by
  have hL0 : 0 < L := by omega
  have hN0 : 0 < L * L := Nat.mul_pos hL0 hL0
  have hLL : L * L ≤ 10 ^ 8 := by
    have := Nat.mul_le_mul hL hL
    omega
  have hLr : ((L * L : Nat) : ℝ) ≤ 10 ^ 8 := by exact_mod_cast hLL
  have hNr : (0 : ℝ) ≤ (L * L : Nat) := Nat.cast_nonneg _
  obtain ⟨rows, T, h1, h2, h3, h4⟩ := C89_path_file hL3 F R hBN G hfmt hmono ctor hf hh n
  refine ⟨rows, T, h1, h2, h3, ?_⟩
  intro row hr
  obtain ⟨p, s, m, n, e, g1, g2, g3, g4, g5, g6⟩ := h4 row hr
  have hθ : (2 * u + printErr) * (L * L : Nat) < 1 / 2 := by
    have := mul_le_mul hη hLr hNr (by norm_num)
    norm_num at this ⊢
    linarith
  exact ⟨p, s, m, n, e, g1, g2, g3, g4, C89_recovered hN0 (by omega) g5 hθ, C89_recovered hN0 g3 g6 hθ⟩

end tell

/-- C89: with the precision of a Python `float`, `3 ≤ L ≤ 10⁴` and at most `10⁶` realisations, ten digits after the point are enough: the number of
occupied sites in every row and at every threshold can be read off the files exactly, and so can the size of the first wrapping cluster. -/
theorem C89_double {L : Nat} {v : Variant} {so : SetOrder} (hv : v ≠ .sp) {rs : List RunDraws} (hL3 : 3 ≤ L) (hL : L ≤ 10 ^ 4) (hE0 : rs ≠ [])
    (hE : rs.length ≤ 10 ^ 6) (pl : Bool) (ctor : Nat → Nat) (hf : ∀ r ∈ rs, 5 * (L * L) < r.fuel) {header : Text} (hh : '\n' ∉ header) (n : Int) :
    ∃ (qs : List (List Nat)) (data : List (List ℝ)) (crit : List (CritRow ℝ)) (T C : List (List ℚ)),
      qs.length = rs.length ∧ (∀ q ∈ qs, q.Perm (List.range (L * L))) ∧
      runEnsemble ⟨so, binArith 52⟩ v pl L ctor rs = .ok (data, crit) ∧
      readTable (saveText header ((FileData.table n data).rows ⟨so, binArith 52⟩)) = some T ∧
      readTable (saveText header ((FileData.critical n crit).rows ⟨so, binArith 52⟩)) = some C ∧ FilesTell L qs T C := by
  have hL0 : 0 < L := by omega
  have hLL : L * L ≤ 10 ^ 8 := by
    have := Nat.mul_le_mul hL hL
    omega
  have hpos : 0 < rs.length := List.length_pos_iff.2 hE0
  have hEr : (rs.length : ℝ) ≤ 10 ^ 6 := by exact_mod_cast hE
  obtain ⟨hi, h1, h2⟩ : ∃ hi : ℝ, 4 * ((2 * (L * L) : Nat) : ℝ) ≤ hi ∧ 4 * scale L * (rs.length + 2) ≤ hi :=
    ⟨max _ _, le_max_left _ _, le_max_right _ _⟩
  have F0 := fits_double hL0 (hL.trans (by norm_num))
  have F : FitsE (2⁻¹ ^ (52 + 1)) 0 hi L rs.length := by
    refine ⟨⟨hL0, F0.u0, F0.small, by rw [zero_mul]; norm_num, h1⟩, hpos, ?_, h2⟩
    have : (2⁻¹ : ℝ) ^ (52 + 1) * (rs.length + 2) ≤ 2⁻¹ ^ (52 + 1) * (10 ^ 6 + 2) := by gcongr
    norm_num at this ⊢
    linarith
  have hη : 2 * ((2⁻¹ : ℝ) ^ (52 + 1) * (2 * rs.length + 9)) + printErr ≤ 5 / 10 ^ 10 := by
    have : 2 * ((2⁻¹ : ℝ) ^ (52 + 1) * (2 * rs.length + 9)) ≤ 2 * (2⁻¹ ^ (52 + 1) * (2 * 10 ^ 6 + 9)) := by gcongr
    unfold printErr
    norm_num at this ⊢
    linarith
  obtain ⟨qs, data, crit, T, C, q1, q2, q3, _, q4⟩ := C89_tell (env := ⟨so, binArith 52⟩) (N := 2 ^ 52) hv F
    (binArith_rounded 52 0 hi le_rfl) (by omega) (by omega) (binArith_gradual 52) (fun x _ => prints_fmtE x) hL3 hL hη pl ctor hf hh n
  exact ⟨qs, data, crit, T, C, q1, q2, q3, q4⟩

/-- C89: the same for the shortest path driver: both numbers of sites can be read off the file exactly. -/
theorem C89_path_double {L : Nat} {so : SetOrder} (hL3 : 3 ≤ L) (hL : L ≤ 10 ^ 4) (ctor : Nat → Nat) {rs : List RunDraws}
    (hf : ∀ r ∈ rs, L * L < r.fuel) {header : Text} (hh : '\n' ∉ header) (n : Int) :
    ∃ rows T, spEnsemble ⟨so, binArith 52⟩ L ctor rs = .ok rows ∧
      readTable (saveText header ((FileData.path n rows).rows ⟨so, binArith 52⟩)) = some T ∧ T.length = rs.length ∧
      ∀ row ∈ T, ∃ (p s : ℚ) (m n : Nat), row = [p, s] ∧ 1 ≤ m ∧ m ≤ n ∧ n ≤ L * L ∧ p ≤ s ∧
        round (p * (L * L : Nat)) = (m : Int) ∧ round (s * (L * L : Nat)) = (n : Int) := by
  have hLL : L * L ≤ 10 ^ 8 := by
    have := Nat.mul_le_mul hL hL
    omega
  have F0 := fits_double (L := L) (by omega) (hL.trans (by norm_num))
  have F : Fits (2⁻¹ ^ (52 + 1)) 0 (4 * ((2 * (L * L) : Nat) : ℝ)) L := ⟨by omega, F0.u0, F0.small, by rw [zero_mul]; norm_num, le_rfl⟩
  exact C89_path_tell (env := ⟨so, binArith 52⟩) (N := 2 ^ 52) hL3 hL F (binArith_rounded 52 0 _ le_rfl) (by omega)
    (binArith_gradual 52) (fun x _ => prints_fmtE x) (fun x y z hx hxy hyz hz => by
      show roundBin 52 (roundBin 52 x / roundBin 52 z) ≤ roundBin 52 (roundBin 52 y / roundBin 52 z)
      rw [roundBin_nat 52 x (by omega), roundBin_nat 52 y (by omega), roundBin_nat 52 z hz]
      have hz0 : (0 : ℝ) < z := by exact_mod_cast (by omega : 0 < z)
      exact roundBin_mono 52 (div_pos (by exact_mod_cast hx) hz0) (div_le_div_of_nonneg_right (by exact_mod_cast hxy) hz0.le))
    (by unfold printErr; norm_num) ctor hf hh n

/-- The hypotheses hold for a hundred realisations of L1 on the `1000 × 1000` lattice with any draws. -/
example (ctor : Nat → Nat) (sh : Nat → Nat) (ds : Nat → Draw) : ∃ data crit T C, runEnsemble ⟨demoSet, binArith 52⟩ .l1 true 1000 ctor
    (List.replicate 100 ⟨sh, ds, 5000001⟩) = .ok (data, crit) ∧
    readTable (saveText "{}".toList ((FileData.table 100 data).rows ⟨demoSet, binArith 52⟩)) = some T ∧
    readTable (saveText "{}".toList ((FileData.critical 100 crit).rows ⟨demoSet, binArith 52⟩)) = some C ∧ T.length = 1000 * 1000 := by
  obtain ⟨qs, data, crit, T, C, _, _, h, h1, h2, h3⟩ := C89_double (so := demoSet) (v := .l1) (L := 1000) (by decide)
    (rs := List.replicate 100 ⟨sh, ds, 5000001⟩) (by norm_num) (by norm_num) (List.ne_nil_of_length_pos (by rw [List.length_replicate]; norm_num))
    (by rw [List.length_replicate]; norm_num) true ctor
    (by intro r hr; rw [List.eq_of_mem_replicate hr]; show 5 * (1000 * 1000) < 5000001; norm_num) (header := "{}".toList) (by decide +kernel) 100
  exact ⟨data, crit, T, C, h, h1, h2, h3.length⟩

end SqPerc
