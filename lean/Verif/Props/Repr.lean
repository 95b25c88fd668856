import Verif.Proof.Repr
import Verif.Props.Ieee
import Verif.Props.FileTexts
import Verif.Props.Averages
/-
C109: the floats in a cross-check file are written with the fewest digits that identify them, and reading the file gives back the same floats bit for
bit; the test of the cross-check files passes with Python's floats.
-/
namespace SqPerc

namespace Dbl

theorem round_self {x : ℝ} {s : Bool} (h : IsDbl x) (h0 : x ≠ 0) {y : ℝ} (hy : nearest y = x) : round s y = fin x h := by
  subst hy
  unfold round
  rw [if_neg h0, dif_pos h]

/-- The text of a positive double reads as a number that is rounded to it. -/
theorem reprPos_read {x : ℝ} (h : IsDbl x) (hx : 0 < x) : ∃ q : ℚ, readNumber (reprPos x) = some q ∧ nearest (q : ℝ) = x := by
  have S := shortest_shown h hx
  refine ⟨_, pointText_read S.pos S.low S.high, ?_⟩
  have := S.reads
  push_cast
  exact this

theorem reprPos_chars {x : ℝ} : NumText (reprPos x) := by
  obtain ⟨c, u, e, _⟩ := pointText_head (m := (shortest x).1) (d := (shortest x).2.1 + (shortest x).2.2)
  refine ⟨?_, fun c hc => pointText_chars hc⟩
  rw [reprPos, e]
  exact List.cons_ne_nil _ _

theorem ofText_pos {x : ℝ} : ofText (reprPos x) = (readNumber (reprPos x)).map fun q : ℚ => round false (q : ℝ) := by
  obtain ⟨c, u, e, hc⟩ := pointText_head (m := (shortest x).1) (d := (shortest x).2.1 + (shortest x).2.2)
  rw [reprPos, e]
  have : c ≠ '-' := by rintro rfl; revert hc; decide
  unfold ofText
  split
  · next h => exact absurd (List.cons.inj h).1 this
  · rfl

end Dbl

/-- C109: a finite float is written as a JSON number, and `float` of that text is the same float, including the sign of zero. -/
theorem C109_read_repr {x : Dbl} (hx : x.Finite) : Dbl.ofText x.repr = some x ∧ NumText x.repr := by
  cases x with
  | fin x h =>
    simp only [Dbl.repr]
    split
    · next hneg =>
      obtain ⟨q, h1, h2⟩ := Dbl.reprPos_read (Dbl.neg_isDbl h) (neg_pos.2 hneg)
      constructor
      · rw [Dbl.ofText, h1, Option.map_some]
        congr 1
        exact Dbl.round_self h hneg.ne (by rw [Dbl.nearest_neg, h2, neg_neg])
      · obtain ⟨_, h4⟩ := Dbl.reprPos_chars (x := -x)
        refine ⟨List.cons_ne_nil _ _, fun c hc => ?_⟩
        rcases List.mem_cons.1 hc with rfl | hc
        · decide
        · exact h4 c hc
    · next hneg =>
      split
      · next h0 =>
        subst h0
        constructor
        · have e : readNumber ['0', '.', '0'] = some 0 := by decide +kernel
          show (readNumber ['0', '.', '0']).map (fun q : ℚ => Dbl.round false (q : ℝ)) = _
          rw [e, Option.map_some]
          simp [Dbl.round, Dbl.nearest_zero, Dbl.zero]
        · exact ⟨by decide, by decide⟩
      · next h0 =>
        have hpos : 0 < x := lt_of_le_of_ne (not_lt.1 hneg) (Ne.symm h0)
        obtain ⟨q, h1, h2⟩ := Dbl.reprPos_read h hpos
        refine ⟨?_, Dbl.reprPos_chars⟩
        rw [Dbl.ofText_pos, h1, Option.map_some]
        congr 1
        exact Dbl.round_self h h0 h2
  | nzero =>
    constructor
    · have e : readNumber ['0', '.', '0'] = some 0 := by decide +kernel
      show (readNumber ['0', '.', '0']).map (fun q : ℚ => Dbl.round true (-(q : ℝ))) = _
      rw [e, Option.map_some]
      simp [Dbl.round, Dbl.nearest_zero, Dbl.zero]
    · exact ⟨by decide, by decide⟩
  | inf s => exact hx.elim
  | nan => exact hx.elim

/-- C109: different floats have different texts. -/
theorem C109_injective {x y : Dbl} (hx : x.Finite) (hy : y.Finite) (h : x.repr = y.repr) : x = y := by
  have := (C109_read_repr hx).1
  rw [h, (C109_read_repr hy).1] at this
  exact (Option.some.inj this).symm

/-- C109: the text of a positive float shows `m * 10 ^ q` where `m` has `n ≤ 17` digits.  No number with fewer digits is rounded to the float, and of
those with `n` digits that are, none is closer. -/
theorem C109_shortest {x : ℝ} (h : IsDbl x) (hx : 0 < x) : ∃ (m n : Nat) (q : ℤ),
    (Dbl.fin x h).repr = pointText (Nat.toDigits 10 m) (n + q) ∧ (Nat.toDigits 10 m).length = n ∧ n ≤ 17 ∧
    readNumber (Dbl.fin x h).repr = some ((m : ℚ) * 10 ^ q) ∧ Dbl.nearest ((m : ℝ) * 10 ^ q) = x ∧
    (∀ (m' k : Nat) (q' : ℤ), k < n → m' < 10 ^ k → Dbl.nearest ((m' : ℝ) * 10 ^ q') ≠ x) ∧
    ∀ (m' : Nat) (q' : ℤ), m' < 10 ^ n → Dbl.nearest ((m' : ℝ) * 10 ^ q') = x → |(m : ℝ) * 10 ^ q - x| ≤ |(m' : ℝ) * 10 ^ q' - x| := by
  have S := Dbl.shortest_shown h hx
  have e : (Dbl.fin x h).repr = Dbl.reprPos x := by
    rw [Dbl.repr, if_neg hx.le.not_gt, if_neg hx.ne']
  refine ⟨_, _, _, e, toDigits_length S.pos S.low S.high, S.le, ?_, S.reads, fun m' k q' hk hm => S.shortest h hx hk hm q', fun m' q' hm hr => S.closest h hx hm hr⟩
  rw [e]
  exact pointText_read S.pos S.low S.high

/-- The exponent is used for small and large places of the point. -/
theorem pointText_form {m : Nat} {d : ℤ} : 'e' ∈ pointText (Nat.toDigits 10 m) d ↔ d ≤ -4 ∨ 16 < d := by
  have hd : 'e' ∉ Nat.toDigits 10 m := not_mem_of_digits (digits_isDigit (n := m)) (by decide)
  have hz : ∀ k, 'e' ∉ List.replicate k '0' := fun k h => by
    have := (List.mem_replicate.1 h).2
    revert this; decide
  unfold pointText
  split
  · next h =>
    refine ⟨fun _ => h, fun _ => ?_⟩
    split
    · next h' => exact absurd h' Nat.toDigits_ne_nil
    · simp
    · simp
  · next h =>
    refine ⟨fun h' => ?_, fun h' => absurd h' h⟩
    exfalso
    split at h'
    · simp only [List.cons_append, List.mem_cons, List.mem_append] at h'
      rcases h' with h' | h' | h' | h'
      · revert h'; decide
      · revert h'; decide
      · exact hz _ h'
      · exact hd h'
    · split at h'
      · simp only [List.mem_append, List.mem_cons, List.not_mem_nil, or_false] at h'
        rcases h' with (h' | h') | h' | h'
        · exact hd h'
        · exact hz _ h'
        · revert h'; decide
        · revert h'; decide
      · simp only [List.mem_append, List.mem_cons] at h'
        rcases h' with h' | h' | h'
        · exact hd (List.mem_of_mem_take h')
        · revert h'; decide
        · exact hd (List.mem_of_mem_drop h')

/-- C109: the exponent form is used exactly for shown values below `0.0001` and from `10 ^ 16` on. -/
theorem C109_form {x : ℝ} (h : IsDbl x) (hx : 0 < x) : ∃ q : ℚ, readNumber (Dbl.fin x h).repr = some q ∧
    ('e' ∈ (Dbl.fin x h).repr ↔ q < 1 / 10000 ∨ 10 ^ 16 ≤ q) := by
  have S := Dbl.shortest_shown h hx
  have e : (Dbl.fin x h).repr = Dbl.reprPos x := by rw [Dbl.repr, if_neg hx.le.not_gt, if_neg hx.ne']
  rw [e]
  refine ⟨_, pointText_read S.pos S.low S.high, ?_⟩
  rw [Dbl.reprPos, pointText_form]
  have hlow := S.low
  have hhigh := S.high
  have hn := S.pos
  generalize (Dbl.shortest x).1 = m at *
  generalize (Dbl.shortest x).2.1 = n at *
  generalize (Dbl.shortest x).2.2 = q at *
  have t0 : (10 : ℚ) ≠ 0 := by norm_num
  have hq : (0 : ℚ) < 10 ^ q := by positivity
  have lo : (10 : ℚ) ^ ((n : ℤ) + q - 1) ≤ m * 10 ^ q := by
    rw [show (n : ℤ) + q - 1 = ((n - 1 : Nat) : ℤ) + q by omega, zpow_add₀ t0, zpow_natCast]
    exact mul_le_mul_of_nonneg_right (by exact_mod_cast hlow) hq.le
  have hi : (m : ℚ) * 10 ^ q < 10 ^ ((n : ℤ) + q) := by
    rw [zpow_add₀ t0, zpow_natCast]
    exact mul_lt_mul_of_pos_right (by exact_mod_cast hhigh) hq
  have e4 : (1 / 10000 : ℚ) = 10 ^ (-4 : ℤ) := by norm_num
  have e16 : (10 ^ 16 : ℚ) = 10 ^ (16 : ℤ) := by norm_num
  rw [e4, e16]
  have one : (1 : ℚ) < 10 := by norm_num
  constructor
  · rintro (h' | h')
    · exact .inl (hi.trans_le (zpow_le_zpow_right₀ one.le h'))
    · exact .inr ((zpow_le_zpow_right₀ one.le (by omega)).trans lo)
  · rintro (h' | h')
    · left
      have := (zpow_lt_zpow_iff_right₀ one).1 (lo.trans_lt h')
      omega
    · right
      exact (zpow_lt_zpow_iff_right₀ one).1 (h'.trans_lt hi)

/-- C109: how digits are laid out. -/
theorem C109_layout : pointText "5".toList (-323) = "5e-324".toList ∧ pointText "25".toList (-3) = "0.00025".toList ∧
    pointText "25".toList (-4) = "2.5e-05".toList ∧ pointText "25".toList 0 = "0.25".toList ∧ pointText "25".toList 1 = "2.5".toList ∧
    pointText "25".toList 2 = "25.0".toList ∧ pointText "25".toList 16 = "2500000000000000.0".toList ∧
    pointText "25".toList 17 = "2.5e+16".toList ∧ pointText "1".toList 309 = "1e+308".toList := by decide +kernel

/-- C109: the text of a negative float is that of its absolute value with a minus sign; infinities and NaN are written as words, which are not JSON
numbers. -/
theorem C109_signs {x : ℝ} (h : IsDbl x) (hx : 0 < x) :
    (Dbl.fin (-x) (Dbl.neg_isDbl h)).repr = '-' :: (Dbl.fin x h).repr ∧ (Dbl.fin 0 Dbl.zero_isDbl).repr = "0.0".toList ∧
    Dbl.nzero.repr = "-0.0".toList ∧ (Dbl.inf false).repr = "Infinity".toList ∧ (Dbl.inf true).repr = "-Infinity".toList ∧
    Dbl.nan.repr = "NaN".toList := by
  refine ⟨?_, ?_, rfl, rfl, rfl, rfl⟩
  · rw [Dbl.repr, if_pos (neg_neg_of_pos hx), neg_neg, Dbl.repr, if_neg hx.le.not_gt, if_neg hx.ne']
  · rw [Dbl.repr, if_neg (lt_irrefl _), if_pos rfl]

namespace Dbl

/-- Where the digits of a number start. -/
theorem digits_place {m n m' n' : Nat} {q q' : ℤ} (h1 : 10 ^ (n - 1) ≤ m) (hn' : 0 < n') (h2 : m' < 10 ^ n')
    (e : (m : ℝ) * 10 ^ q = m' * 10 ^ q') : (n : ℤ) + q ≤ n' + q' := by
  have e1 : (10 : ℝ) ^ ((n : ℤ) - 1 + q) ≤ m * 10 ^ q := by
    have : (10 : ℝ) ^ ((n : ℤ) - 1) ≤ m := by
      rcases Nat.eq_zero_or_pos n with rfl | hn
      · have : (1 : ℝ) ≤ m := by exact_mod_cast h1
        exact (zpow_le_one_of_nonpos₀ (by norm_num) (by norm_num)).trans this
      · rw [show (n : ℤ) - 1 = ((n - 1 : Nat) : ℤ) by omega, zpow_natCast]
        exact_mod_cast h1
    rw [zpow_add₀ ten_ne]
    exact mul_le_mul_of_nonneg_right this (ten_pos q).le
  have e2 : (m' : ℝ) * 10 ^ q' < 10 ^ ((n' : ℤ) + q') := by
    rw [zpow_add₀ ten_ne]
    refine mul_lt_mul_of_pos_right ?_ (ten_pos q')
    rw [zpow_natCast]
    exact_mod_cast h2
  rw [e] at e1
  have := (zpow_lt_zpow_iff_right₀ (by norm_num : (1 : ℝ) < 10)).1 (e1.trans_lt e2)
  omega

/-- Different numbers with few digits are not close. -/
theorem decimals_apart {m m' : Nat} {q q' : ℤ} (hq : q ≤ q') (hm : m < 10 ^ 15) (hne : (m : ℝ) * 10 ^ q ≠ m' * 10 ^ q') :
    (m : ℝ) * 10 ^ q < |(m : ℝ) * 10 ^ q - m' * 10 ^ q'| * 10 ^ 15 := by
  obtain ⟨k, hk⟩ : ∃ k : Nat, q' = q + k := ⟨(q' - q).toNat, by omega⟩
  have e : (m' : ℝ) * 10 ^ q' = ((m' * 10 ^ k : Nat) : ℝ) * 10 ^ q := by
    rw [hk, zpow_add₀ ten_ne, zpow_natCast]; push_cast; ring
  rw [e] at hne ⊢
  rw [← sub_mul, abs_mul, abs_of_pos (ten_pos q)]
  have h1 : (1 : ℝ) ≤ |(m : ℝ) - (m' * 10 ^ k : Nat)| := by
    have : (m : ℤ) - ((m' * 10 ^ k : Nat) : ℤ) ≠ 0 := fun h => hne (by
      rw [show m = m' * 10 ^ k by omega])
    have := Int.one_le_abs this
    exact_mod_cast this
  have h2 : (m : ℝ) < 10 ^ 15 := by exact_mod_cast hm
  have h3 : (m : ℝ) < |(m : ℝ) - (m' * 10 ^ k : Nat)| * 10 ^ 15 := by nlinarith
  nlinarith [ten_pos q]

/-- A number with at most 15 digits is the shortest one that is rounded to its double. -/
theorem shown_decimal {m : Nat} {q : ℤ} (h1 : m < 10 ^ 15) (h2 : ¬ 10 ∣ m) (hlo : tiny ≤ (m : ℝ) * 10 ^ q) (hhi : (m : ℝ) * 10 ^ q ≤ big) :
    0 < nearest ((m : ℝ) * 10 ^ q) ∧
    (shortest (nearest ((m : ℝ) * 10 ^ q))).1 = m ∧ (shortest (nearest ((m : ℝ) * 10 ^ q))).2.2 = q := by
  obtain ⟨d, hd⟩ : ∃ d, d = (m : ℝ) * 10 ^ q := ⟨_, rfl⟩
  rw [← hd] at hlo hhi ⊢
  have hd0 : 0 < d := tiny_pos.trans_le hlo
  have hx := nearest_isDbl (x := d) (by rw [abs_of_pos hd0]; exact hhi)
  have herr := nearest_err d
  rw [abs_of_pos hd0, max_eq_left hlo] at herr
  have hx0 : 0 < nearest d := by
    have := abs_le.1 herr
    have : (2⁻¹ : ℝ) ^ 53 * d ≤ 2⁻¹ * d := mul_le_mul_of_nonneg_right (by norm_num) hd0.le
    linarith
  refine ⟨hx0, ?_⟩
  have S := shortest_shown hx hx0
  generalize (shortest (nearest d)).1 = m' at S ⊢
  generalize (shortest (nearest d)).2.1 = n' at S ⊢
  generalize (shortest (nearest d)).2.2 = q' at S ⊢
  have hm0 : m ≠ 0 := fun h => h2 (h ▸ dvd_zero 10)
  -- the number of digits of `m`
  obtain ⟨n, hn⟩ : ∃ n, n = (Nat.toDigits 10 m).length := ⟨_, rfl⟩
  have hn0 : 0 < n := hn ▸ List.length_pos_of_ne_nil Nat.toDigits_ne_nil
  have hup : m < 10 ^ n := (Nat.length_toDigits_le_iff (b := 10) (by norm_num) hn0).1 hn.ge
  have hdn : 10 ^ (n - 1) ≤ m := by
    rcases Nat.lt_or_ge 1 n with h | h
    · by_contra hc
      have := (Nat.length_toDigits_le_iff (b := 10) (k := n - 1) (n := m) (by norm_num) (by omega)).2 (by omega)
      omega
    · rw [show n - 1 = 0 by omega, pow_zero]; omega
  have hn15 : n ≤ 15 := hn ▸ (Nat.length_toDigits_le_iff (b := 10) (by norm_num) (by norm_num)).2 h1
  have hle : n' ≤ n := by
    by_contra hc
    exact S.shortest hx hx0 (not_le.1 hc) hup q (by rw [← hd])
  have hm' : m' < 10 ^ 15 := S.high.trans_le (Nat.pow_le_pow_right (by norm_num) (hle.trans hn15))
  have hm0' : 0 < m' := (Nat.pow_pos (by norm_num)).trans_le S.low
  obtain ⟨d', hd'⟩ : ∃ d', d' = (m' : ℝ) * 10 ^ q' := ⟨_, rfl⟩
  have hd0' : 0 < d' := by rw [hd']; exact mul_pos (by exact_mod_cast hm0') (ten_pos _)
  have herr' := nearest_err d'
  have hreads := S.reads
  rw [← hd'] at hreads
  rw [hreads, abs_of_pos hd0'] at herr'
  have hmax : max d' tiny ≤ d' + d := max_le (by linarith) (by linarith)
  have herr2 : |nearest d - d'| ≤ 2⁻¹ ^ 53 * (d' + d) := herr'.trans (mul_le_mul_of_nonneg_left hmax (by positivity))
  have hdd : |d - d'| ≤ 2⁻¹ ^ 53 * (d' + 2 * d) := by
    have := abs_sub_le d (nearest d) d'
    rw [abs_sub_comm d (nearest d)] at this
    linarith
  have heq : d = d' := by
    by_contra hne
    have hb := abs_le.1 hdd
    have hc1 : d' ≤ 2 * d := by norm_num at hb ⊢; linarith
    have hc2 : d ≤ 2 * d' := by norm_num at hb ⊢; linarith
    rcases le_total q q' with hq | hq
    · have := decimals_apart (m' := m') hq h1 (by rw [← hd, ← hd']; exact hne)
      rw [← hd, ← hd'] at this
      norm_num at this hdd
      linarith
    · have := decimals_apart (m' := m) hq hm' (by rw [← hd, ← hd']; exact Ne.symm hne)
      rw [← hd, ← hd', abs_sub_comm] at this
      norm_num at this hdd
      linarith
  have hee : (m : ℝ) * 10 ^ q = m' * 10 ^ q' := by rw [← hd, ← hd']; exact heq
  have p1 := digits_place hdn S.pos S.high hee
  obtain ⟨k, hk⟩ : ∃ k : Nat, q' = q + k := ⟨(q' - q).toNat, by omega⟩
  have hmm : m = m' * 10 ^ k := by
    have : (m : ℝ) * 10 ^ q = ((m' * 10 ^ k : Nat) : ℝ) * 10 ^ q := by
      rw [hee, hk, zpow_add₀ ten_ne, zpow_natCast]; push_cast; ring
    exact_mod_cast mul_right_cancel₀ (ten_pos q).ne' this
  have hk0 : k = 0 := by
    by_contra hc
    exact h2 (hmm ▸ (dvd_pow_self 10 hc).mul_left m')
  subst hk0
  exact ⟨by rw [hmm]; simp, by omega⟩

end Dbl

/-- C109: the double nearest to a decimal number with at most 15 digits is written as that number. -/
theorem C109_decimal {m : Nat} {q : ℤ} (h1 : m < 10 ^ 15) (h2 : ¬ 10 ∣ m) (hlo : Dbl.tiny ≤ (m : ℝ) * 10 ^ q) (hhi : (m : ℝ) * 10 ^ q ≤ Dbl.big)
    {x : Dbl} (hx : x.Finite) (hv : x.val = Dbl.nearest ((m : ℝ) * 10 ^ q)) :
    x.repr = pointText (Nat.toDigits 10 m) ((Nat.toDigits 10 m).length + q) ∧ readNumber x.repr = some ((m : ℚ) * 10 ^ q) := by
  obtain ⟨h0, e1, e2⟩ := Dbl.shown_decimal h1 h2 hlo hhi
  rw [← hv] at h0 e1 e2
  cases x with
  | fin x h =>
    change 0 < x at h0
    have S := Dbl.shortest_shown h h0
    have e : (Dbl.fin x h).repr = Dbl.reprPos x := by rw [Dbl.repr, if_neg h0.le.not_gt, if_neg h0.ne']
    have hl := toDigits_length S.pos S.low S.high
    have hr := pointText_read (q := (Dbl.shortest x).2.2) S.pos S.low S.high
    rw [show (Dbl.fin x h).val = x from rfl] at e1 e2
    rw [e, Dbl.reprPos, hr, e1, e2]
    rw [e1] at hl
    exact ⟨by rw [hl], rfl⟩
  | nzero => exact absurd h0 (lt_irrefl _)
  | inf s => exact hx.elim
  | nan => exact hx.elim

variable {L : Nat} {lg : Dbl → Dbl} {so : SetOrder} {v : Variant}

/-- Zeros at the end can be taken off. -/
theorem strip_tens : ∀ {m : Nat}, m ≠ 0 → ∃ m' k : Nat, m = m' * 10 ^ k ∧ ¬ 10 ∣ m' := by
  intro m
  induction m using Nat.strong_induction_on with
  | _ m ih =>
    intro h0
    by_cases hd : 10 ∣ m
    · obtain ⟨c, rfl⟩ := hd
      obtain ⟨m', k, e, h⟩ := ih c (by omega) (by omega)
      exact ⟨m', k + 1, by rw [pow_succ, ← Nat.mul_assoc, ← e, Nat.mul_comm], h⟩
    · exact ⟨m, 0, by simp, hd⟩

/-- A fraction with at most 15 decimals is written exactly. -/
theorem Dbl.frac_text {n N m j : Nat} (hn0 : 0 < n) (hn : n ≤ N) (hN : N ≤ 2 ^ 53) (e : n * 10 ^ j = m * N) (h1 : m < 10 ^ 15) :
    readNumber ((ofNat n).div (ofNat N)).repr = some ((n : ℚ) / N) ∧
      ∀ m' k : Nat, m = m' * 10 ^ k → ¬ 10 ∣ m' →
        ((ofNat n).div (ofNat N)).repr = pointText (Nat.toDigits 10 m') ((Nat.toDigits 10 m').length + (k - j)) := by
  have hN0 : 0 < N := hn0.trans_le hn
  have hNr : (0 : ℝ) < N := by exact_mod_cast hN0
  have er : (n : ℝ) * 10 ^ j = m * N := by exact_mod_cast e
  have hval : (m : ℝ) * 10 ^ (-(j : ℤ)) = (n : ℝ) / N := by
    rw [zpow_neg, zpow_natCast, eq_div_iff hNr.ne', mul_assoc, mul_comm _ (N : ℝ), ← mul_assoc, ← er, mul_assoc, mul_inv_cancel₀ (by positivity), mul_one]
  have hm0 : m ≠ 0 := by
    rintro rfl
    rw [Nat.zero_mul] at e
    have := Nat.pow_pos (n := j) (show 0 < 10 by norm_num)
    rcases Nat.mul_eq_zero.1 e with h | h <;> omega
  have hlo : Dbl.tiny ≤ (n : ℝ) / N := by
    have h3 : (2 : ℝ)⁻¹ ^ 53 ≤ n / N := by
      rw [le_div_iff₀ hNr]
      have a1 : (N : ℝ) ≤ 2 ^ 53 := by exact_mod_cast hN
      have a2 : (1 : ℝ) ≤ n := by exact_mod_cast hn0
      have : (2 : ℝ)⁻¹ ^ 53 * N ≤ 2⁻¹ ^ 53 * 2 ^ 53 := by gcongr
      norm_num at this ⊢
      linarith
    have h4 : Dbl.tiny ≤ (2 : ℝ)⁻¹ ^ 53 := by
      rw [show (2 : ℝ)⁻¹ ^ 53 = 2 ^ (-53 : ℤ) by norm_num]
      exact zpow_le_zpow_right₀ (by norm_num) (by norm_num)
    exact h4.trans h3
  have hhi : (n : ℝ) / N ≤ Dbl.big := by
    refine le_trans ?_ one_le_big
    rw [div_le_one hNr]
    exact_mod_cast hn
  obtain ⟨f1, f2⟩ := Dbl.frac_val hN0 hn hN
  have key : ∀ m' k : Nat, m = m' * 10 ^ k → ¬ 10 ∣ m' →
      ((ofNat n).div (ofNat N)).repr = pointText (Nat.toDigits 10 m') ((Nat.toDigits 10 m').length + (k - j)) ∧
        readNumber ((ofNat n).div (ofNat N)).repr = some ((n : ℚ) / N) := by
    intro m' k hm hd
    have hval' : (m' : ℝ) * 10 ^ ((k : ℤ) - j) = (n : ℝ) / N := by
      rw [← hval, hm, sub_eq_add_neg, zpow_add₀ ten_ne, zpow_natCast]; push_cast; ring
    have hlt : m' < 10 ^ 15 := (Nat.le_mul_of_pos_right m' (Nat.pow_pos (by norm_num))).trans_lt (hm ▸ h1)
    obtain ⟨g1, g2⟩ := C109_decimal (q := (k : ℤ) - j) hlt hd (by rw [hval']; exact hlo) (by rw [hval']; exact hhi) f1 (by rw [f2, hval'])
    refine ⟨g1, ?_⟩
    rw [g2]
    congr 1
    apply Rat.cast_injective (α := ℝ)
    push_cast
    exact hval'
  obtain ⟨m', k, hm, hd⟩ := strip_tens hm0
  exact ⟨(key m' k hm hd).2, fun m' k hm hd => (key m' k hm hd).1⟩

theorem pc_pos {α : Type} {env : Env α} {S : Perc α} {seq : List Nat} (T : Trace env v L S seq) (hw : S.afterWrapping = true) : 0 < S.pcOccupied := by
  obtain ⟨_, A, M, hA, I⟩ := T.sim
  obtain ⟨pre, k, post, h1, h2, h3, h4, _⟩ := I.on (M.aw ▸ hw)
  rw [M.pco, h4]
  omega

/-- C109: if `n / L²` has at most 15 decimals (for example, if `L` is a power of ten up to `10⁷`), then the threshold `pc` is written exactly. -/
theorem C109_threshold {env : Env Dbl} (ha : env.ar = Dbl.arith lg) (hL : L * L ≤ 2 ^ 53) {S : Perc Dbl} {seq : List Nat} (T : Trace env v L S seq)
    (hw : S.afterWrapping = true) {m j : Nat} (e : S.pcOccupied * 10 ^ j = m * (L * L)) (h1 : m < 10 ^ 15) :
    readNumber (S.getPc env).repr = some ((S.pcOccupied : ℚ) / (L * L : Nat)) := by
  obtain ⟨hL0, A, M, _⟩ := T.sim
  have hu := C54_critical_upper T hw
  have hp : 0 < S.pcOccupied := pc_pos T hw
  have eq : S.getPc env = (Dbl.ofNat S.pcOccupied).div (Dbl.ofNat (L * L)) := by
    rw [Perc.getPc, if_pos hw, show S.lat.siteCount = L * L by rw [M.lat, mkLat_siteCount], ha]
    rfl
  rw [eq]
  exact (Dbl.frac_text (by omega) (by omega) hL e h1).1

/-- C109: for `L = 10` the recorded threshold is the exact fraction, with at most two decimals. -/
theorem C109_threshold_ten {env : Env Dbl} (ha : env.ar = Dbl.arith lg) {S : Perc Dbl} {seq : List Nat} (T : Trace env v 10 S seq)
    (hw : S.afterWrapping = true) : readNumber (S.getPc env).repr = some ((S.pcOccupied : ℚ) / 100) ∧ (S.getPc env).repr.length ≤ 4 := by
  obtain ⟨hL0, A, M, _⟩ := T.sim
  have hu := C54_critical_upper T hw
  have hp : 0 < S.pcOccupied := pc_pos T hw
  have eq : S.getPc env = (Dbl.ofNat S.pcOccupied).div (Dbl.ofNat (10 * 10)) := by
    rw [Perc.getPc, if_pos hw, show S.lat.siteCount = 10 * 10 by rw [M.lat, mkLat_siteCount], ha]
    rfl
  obtain ⟨h1, h2⟩ := Dbl.frac_text (n := S.pcOccupied) (N := 10 * 10) (m := S.pcOccupied) (j := 2) (by omega) (by omega) (by norm_num) (by norm_num)
    (by omega)
  rw [eq]
  refine ⟨by simpa using h1, ?_⟩
  have hall : ∀ n < 101, 0 < n → (if n % 10 = 0 then if n % 100 = 0 then (pointText (Nat.toDigits 10 (n / 100)) ((Nat.toDigits 10 (n / 100)).length + ((2 : Nat) - (2 : Nat) : ℤ))).length ≤ 4 else
      (pointText (Nat.toDigits 10 (n / 10)) ((Nat.toDigits 10 (n / 10)).length + ((1 : Nat) - (2 : Nat) : ℤ))).length ≤ 4
      else (pointText (Nat.toDigits 10 n) ((Nat.toDigits 10 n).length + ((0 : Nat) - (2 : Nat) : ℤ))).length ≤ 4) := by decide +kernel
  have := hall S.pcOccupied (by omega) (by omega)
  split at this
  · split at this
    · rw [h2 (S.pcOccupied / 100) 2 (by omega) (by omega)]; exact this
    · rw [h2 (S.pcOccupied / 10) 1 (by omega) (by omega)]; exact this
  · rw [h2 S.pcOccupied 0 (by omega) (by omega)]; exact this

/-- C109: no file of `single_realization` with `L ≤ 2²²` contains an infinity or NaN. -/
theorem C109_finite (hlg : Dbl.GoodLog lg (2⁻¹ ^ 52)) (hL0 : 0 < L) (hL : L ≤ 2 ^ 22) (hv : v ≠ .sp) (ctor : Nat → Nat) {r : RunDraws}
    (hf : initBudget L v < r.fuel) : ∃ f, singleRealization ⟨so, Dbl.arith lg⟩ v L ctor r = .ok f ∧ ∀ x ∈ f.reals, x.Finite := by
  obtain ⟨S0, S1, S2, seq, _, _, e2, _, F, T, hperm, hR, ⟨es, x4, x5, _⟩, ow, ol, _, _, hsr⟩ :=
    single_run (v := v) ⟨so, Dbl.arith lg⟩ hL0 ctor (r := r) hv hf
  obtain ⟨idxs, hi⟩ : ∃ idxs, S2.getIndexSequence v = .ok idxs := by
    cases v with
    | sp => exact absurd rfl hv
    | l1 => exact ⟨_, (C38_sequence T).1⟩
    | l0 => exact ⟨_, indexSequence_ids hR (by decide)⟩
    | l2 => exact ⟨_, indexSequence_ids hR (by decide)⟩
  have hLL : L * L ≤ 2 ^ 44 := by
    have := Nat.mul_le_mul hL hL
    omega
  have hLpos : 0 < L * L := Nat.mul_pos hL0 hL0
  refine ⟨_, hsr _ hi, fun x hx => ?_⟩
  have hst : ∀ q ∈ stages [] seq, q.Nodup ∧ ∀ s ∈ q, s < L * L := by
    intro q hq
    refine ⟨?_, fun s hs => ?_⟩
    · obtain ⟨i, hi, e⟩ := List.mem_iff_getElem.1 hq
      have := stages_getElem? [] seq i
      rw [List.getElem?_eq_getElem hi, e] at this
      split at this
      · rw [Option.some.inj this, List.nil_append]
        exact (hperm.nodup_iff.2 List.nodup_range).sublist (List.take_sublist _ _)
      · cases this
    · have := stages_mem hq s hs
      rw [List.nil_append] at this
      exact List.mem_range.1 (hperm.mem_iff.1 this)
  simp only [CrossFile.reals, crossFile, List.mem_cons, List.mem_append] at hx
  rcases hx with rfl | (hx | hx) | hx
  · unfold Perc.getPc
    split
    · next ha =>
      obtain ⟨_, A, M, _⟩ := T.sim
      rw [show S2.lat.siteCount = L * L by rw [M.lat, mkLat_siteCount]]
      have := C54_critical_upper T ha
      exact (Dbl.frac_val hLpos (by omega) (by omega)).1
    · exact (Dbl.ofNat_val (by norm_num)).1
  · obtain ⟨S', seq', es', h1, h2, h3, h4, h5⟩ := C106_run hlg hL F (fuel := r.fuel) (ds := r.steps) hf
    rw [Except.ok.inj (h1.symm.trans e2)] at h3
    have hnil : S1.entropyList = [] := by
      have := congrArg List.length h3
      rw [x4, x5, List.length_append, h4] at this
      exact List.length_eq_zero_iff.1 (by omega)
    rw [h3, hnil, List.nil_append] at hx
    obtain ⟨i, hi, e⟩ := List.mem_iff_getElem.1 hx
    rw [List.forall₂_iff_get] at h5
    have := (h5.2 i hi (by rw [← h5.1]; exact hi)).1
    rw [← e]
    exact this
  · rw [ol] at hx
    obtain ⟨q, hq, rfl⟩ := List.mem_map.1 hx
    obtain ⟨_, _, _, b, _⟩ := order_bounds hL0 (hst q hq).1 (hst q hq).2
    exact (Dbl.frac_val (by omega) b (by omega)).1
  · rw [ow] at hx
    obtain ⟨q, hq, rfl⟩ := List.mem_map.1 hx
    obtain ⟨_, _, b', b, _⟩ := order_bounds hL0 (hst q hq).1 (hst q hq).2
    unfold ordW
    split
    · exact (Dbl.frac_val (by omega) (b'.trans b) (by omega)).1
    · exact (Dbl.ofNat_val (by norm_num)).1

/-- C109: reading the file of `single_realization` gives back every number bit for bit. -/
theorem C109_file (hlg : Dbl.GoodLog lg (2⁻¹ ^ 52)) (hL0 : 0 < L) (hL : L ≤ 2 ^ 22) (hv : v ≠ .sp) (ctor : Nat → Nat) {r : RunDraws}
    (hf : initBudget L v < r.fuel) (t : Stamp) : ∃ f, singleRealization ⟨so, Dbl.arith lg⟩ v L ctor r = .ok f ∧
      crossRead Dbl.ofText ((crossHead L t f).dumps Dbl.repr) = some (L, f) := by
  obtain ⟨f, h1, h2⟩ := C109_finite (so := so) hlg hL0 hL hv ctor hf
  exact ⟨f, h1, C90_cross L t (fun x hx => (C109_read_repr (h2 x hx)).2) fun x hx => (C109_read_repr (h2 x hx)).1⟩

open Classical in
/-- C109: what the comparison of the thresholds in the test means: the rounded difference is less than the float `1e-6`. -/
theorem C109_near {x y : Dbl} (hx : x.Finite) (hy : y.Finite) (hb : |x.val - y.val| ≤ Dbl.big) :
    x.near y = true ↔ |Dbl.nearest (x.val - y.val)| < Dbl.nearest (1 / 10 ^ 6) := by
  obtain ⟨n1, n2⟩ := Dbl.neg_val hy
  obtain ⟨h1, h2⟩ := Dbl.add_val hx n1 (by rw [n2, ← sub_eq_add_neg]; exact hb)
  rw [n2, ← sub_eq_add_neg] at h2
  unfold Dbl.near
  rw [decide_eq_true_iff, Dbl.sub, h2]
  exact ⟨fun h => h.2, fun h => ⟨h1, h⟩⟩

theorem Dbl.tolerance_pos : 0 < Dbl.nearest (1 / 10 ^ 6) := by
  have h1 : (2 : ℝ)⁻¹ ^ 20 ≤ 1 / 10 ^ 6 := by norm_num
  have h2 := Dbl.nearest_mono (by positivity) h1
  have h3 : IsDbl ((2 : ℝ)⁻¹ ^ 20) := ⟨1, -20, by norm_num, by norm_num, by norm_num, by norm_num⟩
  rw [Dbl.nearest_isDbl_self h3] at h2
  exact lt_of_lt_of_le (by positivity) h2

theorem Dbl.near_self {x : Dbl} (hx : x.Finite) : x.near x = true := by
  rw [C109_near hx hx (by rw [sub_self, abs_zero]; exact zero_le_one.trans Dbl.one_le_big), sub_self, Dbl.nearest_zero, abs_zero]
  exact Dbl.tolerance_pos

open Classical in
/-- C109: with Python's floats the file that `single_realization(SitePercolationL0, L)` writes passes the test of the cross-check files, with any
random numbers, although the test compares the entropies for equality. -/
theorem C109_test_passes (hlg : Dbl.GoodLog lg (2⁻¹ ^ 52)) (hL0 : 0 < L) (hL : L ≤ 2 ^ 22) (ctor : Nat → Nat) {r : RunDraws} (hf : L * L < r.fuel)
    (t : Stamp) : ∃ f, singleRealization ⟨so, Dbl.arith lg⟩ .l0 L ctor r = .ok f ∧
      ∀ (ctor' draws' : Nat → Nat) (fuel' : Nat) (ds' : Nat → Draw), L * L < fuel' →
        crossTest ⟨so, Dbl.arith lg⟩ Dbl.ofText Dbl.near ctor' draws' fuel' ds' ((crossHead L t f).dumps Dbl.repr) = .ok () := by
  obtain ⟨f, h1, h2⟩ := C90_test_reals (env := ⟨so, Dbl.arith lg⟩) (rd := Dbl.ofText) (near := Dbl.near) (repr := Dbl.repr) hL0 ctor hf t
  obtain ⟨f', h3, h4⟩ := C109_finite (so := so) (v := .l0) hlg hL0 hL (by decide) ctor (r := r) (by show (L : Int) * L < r.fuel; exact_mod_cast hf)
  rw [← Except.ok.inj (h1.symm.trans h3)] at h4
  refine ⟨f, h1, h2 (fun x hx => (C109_read_repr (h4 x hx)).symm) (Dbl.near_self (h4 _ ?_))⟩
  exact List.mem_cons_self

/-! ### Concrete cases -/

theorem logRound_ok : Dbl.GoodLog Dbl.logRound (2⁻¹ ^ 52) := fun x hx h0 =>
  ⟨(Dbl.logRound_good x hx h0).1, (Dbl.logRound_good x hx h0).2.trans (mul_le_mul_of_nonneg_right half_le (abs_nonneg _))⟩

-- 59 of 100 sites
example : ((Dbl.ofNat 59).div (Dbl.ofNat 100)).repr = "0.59".toList :=
  ((Dbl.frac_text (m := 59) (j := 2) (by norm_num) (by norm_num) (by norm_num) (by norm_num) (by norm_num)).2 59 0 (by norm_num) (by norm_num)).trans
    (by decide +kernel)

-- 6 of 10^10 sites
example : ((Dbl.ofNat 6).div (Dbl.ofNat (10 ^ 10))).repr = "6e-10".toList :=
  ((Dbl.frac_text (m := 6) (j := 10) (by norm_num) (by norm_num) (by norm_num) (by norm_num) (by norm_num)).2 6 0 (by norm_num) (by norm_num)).trans
    (by decide +kernel)

-- a correctly rounded logarithm meets the hypotheses
open Classical in
example : ∃ f, singleRealization ⟨demoSet, Dbl.arith Dbl.logRound⟩ .l0 3 (fun _ => 0) crossDraws = .ok f ∧
    crossTest ⟨demoSet, Dbl.arith Dbl.logRound⟩ Dbl.ofText Dbl.near (fun _ => 1) (fun _ => 2) 50 (fun i => ⟨i, i + 3⟩)
      ((crossHead 3 ⟨2019, 12, 31, 23, 59, 58⟩ f).dumps Dbl.repr) = .ok () := by
  obtain ⟨f, h1, h2⟩ := C109_test_passes (so := demoSet) logRound_ok (L := 3) (by norm_num) (by norm_num) (fun _ => 0) (r := crossDraws) (by decide)
    ⟨2019, 12, 31, 23, 59, 58⟩
  exact ⟨f, h1, h2 _ _ _ _ (by norm_num)⟩

theorem half_isDbl : IsDbl (1 / 2) := ⟨1, -1, by norm_num, by norm_num, by norm_num, by norm_num⟩

-- one half
example : (Dbl.fin (1 / 2) half_isDbl).repr = "0.5".toList := by
  have hlog : Int.log 10 (1 / 2 : ℝ) = -1 := by
    have h1 := Dbl.log_ten_le (x := 1 / 2) (by norm_num)
    have h2 := Dbl.lt_log_ten (1 / 2)
    have h3 : Int.log 10 (1 / 2 : ℝ) < 0 := by
      by_contra hc
      have := one_le_zpow₀ (by norm_num : (1 : ℝ) ≤ 10) (not_lt.1 hc)
      linarith
    have h4 : -2 < Int.log 10 (1 / 2 : ℝ) := by
      by_contra hc
      have : (10 : ℝ) ^ (Int.log 10 (1 / 2 : ℝ) + 1) ≤ 10 ^ (-1 : ℤ) := zpow_le_zpow_right₀ (by norm_num) (by omega)
      norm_num at this h2
      linarith
    omega
  have hd : Dbl.digitsOf (1 / 2) 1 = some 5 := by
    have hq : Dbl.lastExp (1 / 2) 1 = -1 := by rw [Dbl.lastExp, hlog]; norm_num
    have hy : (1 / 2 : ℝ) * 10 ^ (-(-1 : ℤ)) = (5 : ℤ) := by norm_num
    unfold Dbl.digitsOf
    simp only [hq, hy, roundEven_int]
    rw [if_pos]
    rw [show ((5 : ℤ) : ℝ) * 10 ^ (-1 : ℤ) = 1 / 2 by norm_num]
    exact Dbl.nearest_isDbl_self half_isDbl
  have hs : Dbl.shortest (1 / 2) = (5, 1, -1) := by
    have hq : Dbl.lastExp (1 / 2) 1 = -1 := by rw [Dbl.lastExp, hlog]; norm_num
    unfold Dbl.shortest
    rw [show List.range 17 = 0 :: (List.range 16).map (· + 1) by decide, List.findSome?_cons]
    simp only [Nat.zero_add, hd, Option.map_some, hq]
    norm_num
    rfl
  rw [Dbl.repr, if_neg (by norm_num), if_neg (by norm_num), Dbl.reprPos, hs]
  decide +kernel

end SqPerc
