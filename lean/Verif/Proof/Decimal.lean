import Verif.Model.Table
import Verif.Spec.Decimal
import Verif.Props.Output
import Verif.Props.Files
import Mathlib.Data.Rat.Floor
import Mathlib.Data.Rat.Cast.Order
import Mathlib.Tactic.Linarith
import Mathlib.Tactic.FieldSimp
import Mathlib.Tactic.Positivity
import Mathlib.Algebra.Order.Field.Power
/-
Reading what `%.10e` has printed.
-/
namespace SqPerc

section
variable {K : Type} [Field K] [LinearOrder K] [IsStrictOrderedRing K] [FloorRing K]

/-! ### Rounding to an integer -/

theorem roundEven_err (x : K) : |(roundEven x : K) - x| ≤ 1 / 2 := by
  have h0 := Int.fract_nonneg x
  have h1 := Int.fract_lt_one x
  have e : x = ⌊x⌋ + Int.fract x := (Int.floor_add_fract x).symm
  have hp : ∀ y : K, y = ⌊x⌋ → |y - x| = Int.fract x := by
    intro y hy
    rw [hy]
    nth_rw 2 [e]
    rw [sub_add_cancel_left, abs_neg, abs_of_nonneg h0]
  have hq : ∀ y : K, y = ⌊x⌋ + 1 → |y - x| = 1 - Int.fract x := by
    intro y hy
    rw [hy]
    nth_rw 2 [e]
    rw [add_sub_add_left_eq_sub, abs_of_nonneg (by linarith)]
  unfold roundEven
  split
  · rw [hp _ rfl]; linarith
  · next h =>
    push Not at h
    split
    · rw [hq _ (by push_cast; rfl)]; linarith
    · next h' =>
      push Not at h'
      split
      · rw [hp _ rfl]; linarith
      · rw [hq _ (by push_cast; rfl)]; linarith

theorem roundEven_int (n : Int) : roundEven (n : K) = n := by
  have h : Int.fract (n : K) < 1 / 2 := by rw [Int.fract_intCast]; norm_num
  rw [roundEven, if_pos h, Int.floor_intCast]

theorem roundEven_mono {x y : K} (h : x ≤ y) : roundEven x ≤ roundEven y := by
  by_contra hc
  push Not at hc
  have h1 := roundEven_err x
  have h2 := roundEven_err y
  rw [abs_le] at h1 h2
  have h3 : (roundEven y : K) + 1 ≤ roundEven x := by exact_mod_cast hc
  have : x = y := le_antisymm h (by linarith [h1.2, h2.1])
  rw [this] at hc
  exact lt_irrefl _ hc

/-! ### The digits -/

/-- The rounded number of units in the last digit. -/
def sciUnits (x : K) : Int := roundEven (x * 10 ^ (10 - Int.log 10 x))

theorem sciUnits_bounds {x : K} (hx : 0 < x) : 10 ^ 10 ≤ sciUnits x ∧ sciUnits x ≤ 10 ^ 11 := by
  have h1 : (10 : K) ^ Int.log 10 x ≤ x := by exact_mod_cast Int.zpow_log_le_self (b := 10) (by norm_num) hx
  have h2 : x < (10 : K) ^ (Int.log 10 x + 1) := by exact_mod_cast Int.lt_zpow_succ_log_self (b := 10) (by norm_num) x
  have hp : (0 : K) < 10 ^ (10 - Int.log 10 x) := by positivity
  have e1 : (10 : K) ^ Int.log 10 x * 10 ^ (10 - Int.log 10 x) = ((10 ^ 10 : Int) : K) := by
    rw [← zpow_add₀ (by norm_num : (10 : K) ≠ 0), add_sub_cancel]; norm_cast
  have e2 : (10 : K) ^ (Int.log 10 x + 1) * 10 ^ (10 - Int.log 10 x) = ((10 ^ 11 : Int) : K) := by
    rw [← zpow_add₀ (by norm_num : (10 : K) ≠ 0), show Int.log 10 x + 1 + (10 - Int.log 10 x) = 11 by ring]; norm_cast
  constructor
  · rw [sciUnits, ← roundEven_int (K := K) (10 ^ 10), ← e1]
    exact roundEven_mono (mul_le_mul_of_nonneg_right h1 hp.le)
  · rw [sciUnits, ← roundEven_int (K := K) (10 ^ 11), ← e2]
    exact roundEven_mono (mul_le_mul_of_nonneg_right h2.le hp.le)

/-- The printed number is a number with eleven digits. -/
theorem sciParts_digits {x : K} (hx : 0 < x) : 10 ^ 10 ≤ (sciParts x).1 ∧ (sciParts x).1 < 10 ^ 11 := by
  obtain ⟨h1, h2⟩ := sciUnits_bounds hx
  unfold sciParts
  simp only
  split
  · exact ⟨le_rfl, by norm_num⟩
  · next h =>
    rw [show roundEven (x * 10 ^ (10 - Int.log 10 x)) = sciUnits x from rfl] at *
    simp only
    omega

/-- The value that is printed for a positive number. -/
def shownPos (x : K) : ℚ := ((sciParts x).1 : ℚ) * 10 ^ ((sciParts x).2 - 10)

theorem shownPos_eq {x : K} (hx : 0 < x) : shownPos x = (sciUnits x : ℚ) * 10 ^ (Int.log 10 x - 10) := by
  obtain ⟨h1, h2⟩ := sciUnits_bounds hx
  have hn : ((sciUnits x).toNat : Int) = sciUnits x := Int.toNat_of_nonneg (by omega)
  unfold shownPos sciParts
  simp only
  rw [show roundEven (x * 10 ^ (10 - Int.log 10 x)) = sciUnits x from rfl]
  split
  · next h =>
    have : sciUnits x = 10 ^ 11 := by omega
    rw [this]
    simp only
    rw [show Int.log 10 x + 1 - 10 = (Int.log 10 x - 10) + 1 by ring, zpow_add_one₀ (by norm_num : (10 : ℚ) ≠ 0)]
    push_cast
    ring
  · simp only
    congr 1
    exact_mod_cast congrArg (fun n : Int => (n : ℚ)) hn

theorem shownPos_pos {x : K} (hx : 0 < x) : 0 < shownPos x := by
  rw [shownPos]
  have := (sciParts_digits hx).1
  have : (0 : ℚ) < ((sciParts x).1 : ℚ) := by exact_mod_cast (by omega : 0 < (sciParts x).1)
  positivity

/-- The relative error of the printed value is at most half a unit in the eleventh digit. -/
theorem shownPos_err {x : K} (hx : 0 < x) : |(shownPos x : K) - x| ≤ x / (2 * 10 ^ 10) := by
  have h1 : (10 : K) ^ Int.log 10 x ≤ x := by exact_mod_cast Int.zpow_log_le_self (b := 10) (by norm_num) hx
  rw [shownPos_eq hx]
  push_cast
  obtain ⟨e, he⟩ : ∃ e, e = Int.log 10 x := ⟨_, rfl⟩
  have h2 := roundEven_err (x * 10 ^ (10 - Int.log 10 x))
  rw [show roundEven (x * 10 ^ (10 - Int.log 10 x)) = sciUnits x from rfl] at h2
  rw [← he] at h1 h2 ⊢
  have hp : (0 : K) < 10 ^ (e - 10) := by positivity
  have e1 : x = x * 10 ^ (10 - e) * 10 ^ (e - 10) := by
    rw [mul_assoc, ← zpow_add₀ (by norm_num : (10 : K) ≠ 0), show 10 - e + (e - 10) = 0 by ring, zpow_zero, mul_one]
  have e2 : (10 : K) ^ (e - 10) = 10 ^ e / 10 ^ 10 := by
    rw [zpow_sub₀ (by norm_num : (10 : K) ≠ 0)]; norm_cast
  calc |(sciUnits x : K) * 10 ^ (e - 10) - x| = |(sciUnits x : K) - x * 10 ^ (10 - e)| * 10 ^ (e - 10) := by
        nth_rw 2 [e1]
        rw [← sub_mul, abs_mul, abs_of_pos hp]
    _ ≤ 1 / 2 * 10 ^ (e - 10) := mul_le_mul_of_nonneg_right h2 hp.le
    _ = 10 ^ e / (2 * 10 ^ 10) := by rw [e2]; field_simp
    _ ≤ x / (2 * 10 ^ 10) := by gcongr

theorem shownPos_mono {x y : K} (hx : 0 < x) (h : x ≤ y) : shownPos x ≤ shownPos y := by
  have hy : 0 < y := lt_of_lt_of_le hx h
  rw [shownPos_eq hx, shownPos_eq hy]
  obtain ⟨a1, a2⟩ := sciUnits_bounds hx
  obtain ⟨b1, b2⟩ := sciUnits_bounds hy
  have hl : Int.log 10 x ≤ Int.log 10 y := Int.log_mono_right hx h
  rcases eq_or_lt_of_le hl with e | hlt
  · have h3 : sciUnits x ≤ sciUnits y := by
      rw [sciUnits, sciUnits, e]
      exact roundEven_mono (mul_le_mul_of_nonneg_right h (by positivity))
    rw [e]
    have : (sciUnits x : ℚ) ≤ sciUnits y := by exact_mod_cast h3
    exact mul_le_mul_of_nonneg_right this (by positivity)
  · have a2' : (sciUnits x : ℚ) ≤ 10 ^ 11 := by exact_mod_cast a2
    have b1' : (10 : ℚ) ^ 10 ≤ sciUnits y := by exact_mod_cast b1
    have h4 : (10 : ℚ) ^ (Int.log 10 x + 1 - 10) ≤ 10 ^ (Int.log 10 y - 10) :=
      zpow_le_zpow_right₀ (by norm_num) (by omega)
    calc (sciUnits x : ℚ) * 10 ^ (Int.log 10 x - 10) ≤ 10 ^ 11 * 10 ^ (Int.log 10 x - 10) :=
          mul_le_mul_of_nonneg_right a2' (by positivity)
      _ = 10 ^ 10 * 10 ^ (Int.log 10 x + 1 - 10) := by
          rw [show Int.log 10 x + 1 - 10 = (Int.log 10 x - 10) + 1 by ring, zpow_add_one₀ (by norm_num : (10 : ℚ) ≠ 0)]
          ring
      _ ≤ 10 ^ 10 * 10 ^ (Int.log 10 y - 10) := mul_le_mul_of_nonneg_left h4 (by positivity)
      _ ≤ sciUnits y * 10 ^ (Int.log 10 y - 10) := mul_le_mul_of_nonneg_right b1' (by positivity)

/-- Numbers with at most eleven significant digits are printed exactly. -/
theorem shownPos_exact {x : K} {n : Nat} {j : Int} (hn : n < 10 ^ 11) (hx : x = n * 10 ^ j) (h0 : 0 < x) : (shownPos x : K) = x := by
  have h1 : (10 : K) ^ Int.log 10 x ≤ x := by exact_mod_cast Int.zpow_log_le_self (b := 10) (by norm_num) h0
  -- the last digit is worth no more than `10 ^ j`
  have hlt : Int.log 10 x < j + 11 := by
    have hn' : (n : K) < 10 ^ 11 := by exact_mod_cast hn
    have : x < (10 : K) ^ (j + 11) := by
      rw [hx, zpow_add₀ (by norm_num : (10 : K) ≠ 0), mul_comm]
      refine mul_lt_mul_of_pos_left ?_ (by positivity)
      exact_mod_cast hn'
    by_contra hc
    push Not at hc
    have := lt_of_le_of_lt h1 this
    exact absurd this (not_lt.2 (zpow_le_zpow_right₀ (by norm_num) hc))
  obtain ⟨d, hd⟩ : ∃ d : Nat, (d : Int) = j + (10 - Int.log 10 x) := ⟨(j + (10 - Int.log 10 x)).toNat, by omega⟩
  have e1 : x * 10 ^ (10 - Int.log 10 x) = ((n * 10 ^ d : Int) : K) := by
    nth_rw 1 [hx]
    rw [mul_assoc, ← zpow_add₀ (by norm_num : (10 : K) ≠ 0), ← hd]
    push_cast
    rw [zpow_natCast]
  have e2 : (sciUnits x : K) = x * 10 ^ (10 - Int.log 10 x) := by rw [sciUnits, e1, roundEven_int]
  rw [shownPos_eq h0]
  push_cast
  rw [e2, mul_assoc, ← zpow_add₀ (by norm_num : (10 : K) ≠ 0), show 10 - Int.log 10 x + (Int.log 10 x - 10) = 0 by ring, zpow_zero, mul_one]

/-- The value that is printed. -/
def shown (x : K) : ℚ := if x < 0 then -shownPos (-x) else if x = 0 then 0 else shownPos x

theorem shown_err (x : K) : |(shown x : K) - x| ≤ |x| / (2 * 10 ^ 10) := by
  unfold shown
  split
  · next h =>
    have := shownPos_err (x := -x) (by linarith)
    rw [abs_of_neg h]
    push_cast
    rwa [← abs_neg, show -(-(shownPos (-x) : K) - x) = (shownPos (-x) : K) - -x by ring]
  · split
    · next h => simp [h]
    · next h1 h2 =>
      have h : 0 < x := lt_of_le_of_ne (not_lt.1 h1) (Ne.symm h2)
      rw [abs_of_pos h]
      exact shownPos_err h

theorem shown_pos {x : K} : 0 < shown x ↔ 0 < x := by
  unfold shown
  split
  · next h =>
    have := shownPos_pos (x := -x) (by linarith)
    constructor <;> intro h' <;> linarith
  · split
    · next h => simp [h]
    · next h1 h2 =>
      have h : 0 < x := lt_of_le_of_ne (not_lt.1 h1) (Ne.symm h2)
      simp [h, shownPos_pos h]

theorem shown_eq_zero {x : K} : shown x = 0 ↔ x = 0 := by
  unfold shown
  split
  · next h =>
    have := shownPos_pos (x := -x) (by linarith)
    constructor <;> intro h' <;> linarith
  · split
    · next h => simp [h]
    · next h1 h2 =>
      have h : 0 < x := lt_of_le_of_ne (not_lt.1 h1) (Ne.symm h2)
      have := shownPos_pos h
      constructor <;> intro h' <;> linarith

theorem shown_mono {x y : K} (h : x ≤ y) : shown x ≤ shown y := by
  rcases lt_or_ge x 0 with hx | hx
  · rcases lt_or_ge y 0 with hy | hy
    · rw [shown, shown, if_pos hx, if_pos hy]
      exact neg_le_neg (shownPos_mono (by linarith) (by linarith))
    · have h1 : ¬ 0 < shown x := fun h => absurd (shown_pos.1 h) (by linarith)
      have h2 : 0 ≤ shown y := by
        rcases eq_or_lt_of_le hy with e | h'
        · rw [shown_eq_zero.2 e.symm]
        · exact (shown_pos.2 h').le
      linarith
  · rcases eq_or_lt_of_le hx with e | hx'
    · rw [shown_eq_zero.2 e.symm]
      rcases eq_or_lt_of_le (hx.trans h) with e' | h'
      · rw [shown_eq_zero.2 e'.symm]
      · exact (shown_pos.2 h').le
    · rw [shown, shown, if_neg (by linarith), if_neg hx'.ne', if_neg (by linarith), if_neg (by linarith)]
      exact shownPos_mono hx' h

theorem shown_exact {x : K} {n j : Int} (hn : n.natAbs < 10 ^ 11) (hx : x = n * 10 ^ j) : (shown x : K) = x := by
  have hp : (0 : K) < 10 ^ j := by positivity
  have hc : ∀ n : Int, 0 ≤ n → ((n.natAbs : Nat) : K) = n := fun n hn => by
    rw [← Int.cast_natCast, Int.natAbs_of_nonneg hn]
  unfold shown
  split
  · next h =>
    have hn0 : n < 0 := by
      by_contra hc'
      push Not at hc'
      have : (0 : K) ≤ n := by exact_mod_cast hc'
      rw [hx] at h
      exact absurd h (not_lt.2 (mul_nonneg this hp.le))
    have := shownPos_exact (x := -x) (n := n.natAbs) (j := j) hn (by
      rw [← Int.natAbs_neg, hc _ (by omega), hx]; push_cast; ring) (by linarith)
    push_cast
    rw [this, neg_neg]
  · split
    · next h => simp [h]
    · next h1 h2 =>
      have h : 0 < x := lt_of_le_of_ne (not_lt.1 h1) (Ne.symm h2)
      have hn0 : 0 ≤ n := by
        by_contra hc'
        push Not at hc'
        have : (n : K) < 0 := by exact_mod_cast hc'
        rw [hx] at h
        exact absurd h (not_lt.2 (mul_nonpos_of_nonpos_of_nonneg this.le hp.le))
      exact shownPos_exact (n := n.natAbs) hn (by rw [hc _ hn0, hx]) h

/-! ### The text -/

theorem digits_isDigit {n : Nat} : (Nat.toDigits 10 n).all Char.isDigit = true := by
  rw [List.all_eq_true]
  exact fun c h => Nat.isDigit_of_mem_toDigits (by norm_num) (by norm_num) h

theorem readNat_digits (n : Nat) : readNat (Nat.toDigits 10 n) = some n := by
  rw [readNat, if_pos ⟨Nat.toDigits_ne_nil, digits_isDigit⟩, Nat.ofDigitChars_ten_toDigits]

theorem readNat_pad (k n : Nat) : readNat (pad k n).toList = some n := by
  rw [pad_toList, readNat, if_pos, Nat.ofDigitChars_append, Nat.ofDigitChars_replicate_zero]
  · simp [Nat.ofDigitChars_ten_toDigits]
  · refine ⟨by simp [Nat.toDigits_ne_nil], ?_⟩
    rw [List.all_append, digits_isDigit, Bool.and_true, List.all_eq_true]
    intro c hc
    rw [(List.mem_replicate.1 hc).2]
    decide

theorem readSigned_expText (e : Int) : readSigned (expText e) = some e := by
  unfold expText
  split
  · next h =>
    rw [readSigned, readNat_pad, Option.map_some]
    congr 1
    omega
  · next h =>
    rw [readSigned, readNat_pad, Option.map_some]
    congr 1
    omega

theorem fields_single {sep : Char} {w : List Char} (h : sep ∉ w) : fields sep w = [w] := by
  induction w with
  | nil => rfl
  | cons c w ih =>
    rw [List.mem_cons, not_or] at h
    rw [fields, if_neg (Ne.symm h.1), ih h.2]

theorem not_mem_of_digits {c : Char} {t : List Char} (h : t.all Char.isDigit = true) (hc : c.isDigit = false) : c ∉ t := fun hm => by
  rw [List.all_eq_true] at h
  rw [h c hm] at hc
  cases hc

/-- The characters of the exponent. -/
theorem expText_chars (e : Int) {c : Char} (h : c ∈ expText e) : c.isDigit = true ∨ c = '+' ∨ c = '-' := by
  rw [expText, List.mem_cons] at h
  rcases h with h | h
  · split at h <;> simp [h]
  · left
    rw [pad_toList, List.mem_append] at h
    rcases h with h | h
    · rw [(List.mem_replicate.1 h).2]; decide
    · exact Nat.isDigit_of_mem_toDigits (by norm_num) (by norm_num) h

theorem sciText_read {m : Nat} (h1 : 10 ^ 10 ≤ m) (h2 : m < 10 ^ 11) (e : Int) : readSci (sciText m e) = some ((m : ℚ) * 10 ^ (e - 10)) := by
  have hlen : (Nat.toDigits 10 m).length = 11 := by
    have h3 := (Nat.length_toDigits_le_iff (b := 10) (k := 11) (n := m) (by norm_num) (by norm_num)).2 h2
    have h4 : ¬ (Nat.toDigits 10 m).length ≤ 10 := fun h => absurd
      ((Nat.length_toDigits_le_iff (b := 10) (k := 10) (n := m) (by norm_num) (by norm_num)).1 h) (by omega)
    omega
  have hd := digits_isDigit (n := m)
  have hr := readNat_digits m
  rcases hm : Nat.toDigits 10 m with _ | ⟨c, cs⟩
  · rw [hm] at hlen; simp at hlen
  · rw [hm] at hlen hd hr
    rw [List.length_cons] at hlen
    rw [List.all_cons, Bool.and_eq_true] at hd
    have hc : c ≠ '.' ∧ c ≠ 'e' := by
      constructor <;> rintro rfl <;> exact absurd hd.1 (by decide)
    have e1 : fields 'e' (sciText m e) = [c :: '.' :: cs, expText e] := by
      rw [sciText, hm]
      show fields 'e' ((c :: '.' :: cs) ++ 'e' :: expText e) = _
      rw [fields_append, fields_single]
      · intro h
        rcases expText_chars e h with h | h | h <;> revert h <;> decide
      · intro h
        rcases List.mem_cons.1 h with h | h
        · exact hc.2 h.symm
        · rcases List.mem_cons.1 h with h | h
          · revert h; decide
          · exact not_mem_of_digits hd.2 (by decide) h
    have e2 : fields '.' (c :: '.' :: cs) = [[c], cs] := by
      show fields '.' ([c] ++ '.' :: cs) = _
      rw [fields_append _ _ _ (by simpa using hc.1.symm), fields_single (not_mem_of_digits hd.2 (by decide))]
    rw [readSci, e1]
    simp only [e2]
    rw [List.singleton_append, hr, readSigned_expText]
    simp only
    rw [show cs.length = 10 by omega]
    rfl

/-- The characters of a printed number. -/
theorem sciText_chars {m : Nat} {e : Int} {c : Char} (h : c ∈ sciText m e) : c.isDigit = true ∨ c = '+' ∨ c = '-' ∨ c = '.' ∨ c = 'e' := by
  have hd := digits_isDigit (n := m)
  rw [List.all_eq_true] at hd
  unfold sciText at h
  rcases hm : Nat.toDigits 10 m with _ | ⟨a, as⟩
  · rw [hm] at h; simp at h
  · rw [hm] at h hd
    simp only [List.cons_append, List.mem_cons, List.mem_append] at h
    rcases h with h | h | h | h | h
    · exact .inl (hd c (by simp [h]))
    · simp [h]
    · exact .inl (hd c (by simp [h]))
    · simp [h]
    · rcases expText_chars e h with h | h | h <;> simp [h]

omit [IsStrictOrderedRing K] in
theorem fmtE_chars {x : K} {c : Char} (h : c ∈ fmtE x) : c.isDigit = true ∨ c = '+' ∨ c = '-' ∨ c = '.' ∨ c = 'e' := by
  unfold fmtE at h
  split at h
  · rcases List.mem_cons.1 h with h | h
    · simp [h]
    · exact sciText_chars h
  · split at h
    · revert h
      have : ∀ c ∈ "0.0000000000e+00".toList, c.isDigit = true ∨ c = '+' ∨ c = '-' ∨ c = '.' ∨ c = 'e' := by decide +kernel
      exact this c
    · exact sciText_chars h

omit [IsStrictOrderedRing K] in
theorem fmtE_ne_nil (x : K) : fmtE x ≠ [] := by
  have hs : ∀ y : K, sciText (sciParts y).1 (sciParts y).2 ≠ [] := by
    intro y
    unfold sciText
    split
    · next h => exact absurd h Nat.toDigits_ne_nil
    · exact List.cons_ne_nil _ _
  unfold fmtE
  split
  · exact List.cons_ne_nil _ _
  · split
    · decide +kernel
    · exact hs x

theorem fmtE_avoids (x : K) {c : Char} (h1 : c.isDigit = false) (h2 : c ≠ '+' ∧ c ≠ '-' ∧ c ≠ '.' ∧ c ≠ 'e') : c ∉ fmtE x := fun h => by
  rcases fmtE_chars h with h | h | h | h | h
  · rw [h] at h1; cases h1
  · exact h2.1 h
  · exact h2.2.1 h
  · exact h2.2.2.1 h
  · exact h2.2.2.2 h

/-- What is printed reads back as the printed value. -/
theorem readDecimal_fmtE (x : K) : readDecimal (fmtE x) = some (shown x) := by
  unfold fmtE shown
  split
  · next h =>
    obtain ⟨h1, h2⟩ := sciParts_digits (x := -x) (by linarith)
    rw [readDecimal, sciText_read h1 h2, Option.map_some, shownPos]
  · split
    · decide +kernel
    · next h h' =>
      have hx : 0 < x := lt_of_le_of_ne (not_lt.1 h) (Ne.symm h')
      obtain ⟨h1, h2⟩ := sciParts_digits hx
      have hr := sciText_read h1 h2 (sciParts x).2
      have hne : ∀ t, sciText (sciParts x).1 (sciParts x).2 ≠ '-' :: t := by
        intro t ht
        have hd := digits_isDigit (n := (sciParts x).1)
        unfold sciText at ht
        split at ht
        · cases ht
        · next c cs hm =>
          rw [hm, List.all_cons, Bool.and_eq_true] at hd
          rw [List.cons_append, List.cons.injEq] at ht
          rw [ht.1] at hd
          exact absurd hd.1 (by decide)
      rw [readDecimal, hr, shownPos]
      exact hne

/-! ### The table -/

theorem fields_join {sep : Char} {ts : List (List Char)} (hne : ts ≠ []) (h : ∀ t ∈ ts, sep ∉ t) : fields sep (joinText [sep] ts) = ts := by
  induction ts with
  | nil => exact absurd rfl hne
  | cons t ts ih =>
    rcases ts with _ | ⟨t', ts⟩
    · rw [joinText, fields_single (h t (by simp))]
    · rw [joinText, List.append_assoc, List.singleton_append, fields_append _ _ _ (h t (by simp)), ih (by simp) fun x hx => h x (by simp [hx])]
      exact List.cons_ne_nil _ _

theorem not_mem_join {c : Char} {sep : List Char} (hs : c ∉ sep) {ts : List (List Char)} (h : ∀ t ∈ ts, c ∉ t) : c ∉ joinText sep ts := by
  induction ts with
  | nil => simp [joinText]
  | cons t ts ih =>
    rcases ts with _ | ⟨t', ts⟩
    · rw [joinText]; exact h t (by simp)
    · rw [joinText, List.mem_append, List.mem_append, not_or, not_or]
      · exact ⟨⟨h t (by simp), hs⟩, ih fun x hx => h x (by simp [hx])⟩
      · exact List.cons_ne_nil _ _

/-- A number is printed as a text that reads as `q` and contains nothing that separates numbers or lines. -/
structure Prints {α : Type} (fmt : α → Text) (x : α) (q : ℚ) : Prop where
  reads : readDecimal (fmt x) = some q
  ne : fmt x ≠ []
  blank : ' ' ∉ fmt x
  line : '\n' ∉ fmt x
  hash : '#' ∉ fmt x

/-- The text of a table file reads back as the printed values, for any way of printing numbers. -/
theorem readTable_saveWith {α : Type} {fmt : α → Text} {sh : α → ℚ} {header : Text} (hh : '\n' ∉ header) {rows : List (List α)}
    (hr : ∀ row ∈ rows, row ≠ []) (hp : ∀ row ∈ rows, ∀ x ∈ row, Prints fmt x (sh x)) :
    readTable (saveWith fmt header rows) = some (rows.map fun row => row.map sh) := by
  have hline : ∀ row ∈ rows, '\n' ∉ joinText [' '] (row.map fmt) := by
    intro row hrow
    refine not_mem_join (by decide) fun t ht => ?_
    obtain ⟨x, hx, rfl⟩ := List.mem_map.1 ht
    exact (hp row hrow x hx).line
  have e1 : lines (saveWith fmt header rows) = ("# ".toList ++ header) :: (rows.map fun row => joinText [' '] (row.map fmt)) ++ [[]] := by
    rw [saveWith, lines_println _ _ (by
      rw [List.mem_append, not_or]; exact ⟨by decide +kernel, hh⟩)]
    have := lines_flatMap (fun row : List α => joinText [' '] (row.map fmt)) rows [] hline
    rw [List.append_nil] at this
    rw [this]
    rfl
  have hhead : ∀ row ∈ rows, ∃ c t, joinText [' '] (row.map fmt) = c :: t ∧ c ≠ '#' := by
    intro row hrow
    rcases row with _ | ⟨x, xs⟩
    · exact absurd rfl (hr _ hrow)
    · have hx := (hp _ hrow x (by simp)).ne
      have hc : '#' ∉ joinText [' '] ((x :: xs).map fmt) := not_mem_join (by decide) fun t ht => by
        obtain ⟨y, hy, rfl⟩ := List.mem_map.1 ht
        exact (hp _ hrow y hy).hash
      rcases hj : joinText [' '] ((x :: xs).map fmt) with _ | ⟨c, t⟩
      · rw [List.map_cons] at hj
        rcases xs with _ | ⟨y, ys⟩
        · rw [List.map_nil, joinText] at hj; exact absurd hj hx
        · rw [List.map_cons, joinText] at hj
          · simp at hj
          · exact List.cons_ne_nil _ _
      · refine ⟨c, t, rfl, ?_⟩
        rintro rfl
        rw [hj] at hc
        simp at hc
  have e2 : ((lines (saveWith fmt header rows)).filter fun l => decide (l ≠ [] ∧ l.head? ≠ some '#')) = rows.map fun row => joinText [' '] (row.map fmt) := by
    rw [e1, List.cons_append, List.filter_cons_of_neg (by
      rw [show "# ".toList = ['#', ' '] by decide +kernel]; simp), List.filter_append, List.filter_cons_of_neg (by simp),
      List.filter_nil, List.append_nil, List.filter_eq_self]
    intro l hl
    obtain ⟨row, hrow, rfl⟩ := List.mem_map.1 hl
    obtain ⟨c, t, e, hc⟩ := hhead row hrow
    rw [e]
    simp [hc]
  have e3 : ∀ xs : List α, (∀ x ∈ xs, Prints fmt x (sh x)) → (xs.map fmt).mapM readDecimal = some (xs.map sh) := by
    intro xs hxs
    induction xs with
    | nil => rfl
    | cons x xs ih => rw [List.map_cons, List.mapM_cons, (hxs x (by simp)).reads, ih fun y hy => hxs y (by simp [hy])]; rfl
  rw [readTable, e2]
  clear e1 e2 hhead hline
  induction rows with
  | nil => rfl
  | cons row rows ih =>
    rw [List.map_cons, List.mapM_cons, ih (fun r h => hr r (by simp [h])) (fun r h => hp r (by simp [h])), fields_join (by simpa using hr row (by simp)), e3 row (hp row (by simp))]
    · rfl
    · intro t ht
      obtain ⟨x, hx, rfl⟩ := List.mem_map.1 ht
      exact (hp row (by simp) x hx).blank

theorem prints_fmtE (x : K) : Prints fmtE x (shown x) where
  reads := readDecimal_fmtE x
  ne := fmtE_ne_nil x
  blank := fmtE_avoids x (by decide) (by decide)
  line := fmtE_avoids x (by decide) (by decide)
  hash := fmtE_avoids x (by decide) (by decide)

/-- The text of a table file reads back as the printed values. -/
theorem readTable_saveText {header : Text} (hh : '\n' ∉ header) {rows : List (List K)} (hr : ∀ row ∈ rows, row ≠ []) :
    readTable (saveText header rows) = some (rows.map fun row => row.map shown) :=
  readTable_saveWith hh hr fun _ _ x _ => prints_fmtE x

end

end SqPerc
