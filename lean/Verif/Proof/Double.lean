import Verif.Model.Double
import Verif.Proof.Decimal
import Mathlib.Tactic.Linarith
import Mathlib.Tactic.Positivity
/-
Rounding to IEEE doubles: error bounds, exactness, monotonicity, overflow.
-/
namespace SqPerc
namespace Dbl

/-- The largest double. -/
noncomputable def big : ℝ := (2 ^ 53 - 1) * 2 ^ (971 : ℤ)

/-- The smallest positive normal double. -/
noncomputable def tiny : ℝ := 2 ^ (-1022 : ℤ)

theorem tiny_pos : 0 < tiny := by unfold tiny; positivity

theorem big_ge : (2 : ℝ) ^ 53 - 1 ≤ big := le_mul_of_one_le_right (by norm_num) (one_le_zpow₀ (by norm_num) (by norm_num))

theorem one_le_big : (1 : ℝ) ≤ big := le_trans (by norm_num) big_ge

theorem unitExp_ge (x : ℝ) : -1074 ≤ unitExp x := le_max_right _ _

theorem two_ne : (2 : ℝ) ≠ 0 := by norm_num

theorem zpow_pos2 (e : ℤ) : (0 : ℝ) < 2 ^ e := by positivity

theorem cancel (x : ℝ) (q : ℤ) : x * 2 ^ (-q) * 2 ^ q = x := by
  rw [mul_assoc, ← zpow_add₀ two_ne, neg_add_cancel, zpow_zero, mul_one]

theorem cancel' (x : ℝ) (q : ℤ) : x * 2 ^ q * 2 ^ (-q) = x := by
  rw [mul_assoc, ← zpow_add₀ two_ne, add_neg_cancel, zpow_zero, mul_one]

theorem abs_lt_unit (x : ℝ) : |x| < 2 ^ (unitExp x + 53) := by
  have h1 : |x| < (2 : ℝ) ^ (Int.log 2 |x| + 1) := by exact_mod_cast Int.lt_zpow_succ_log_self (b := 2) (by norm_num) |x|
  exact h1.trans_le (zpow_le_zpow_right₀ (by norm_num) (by unfold unitExp; have := le_max_left (Int.log 2 |x| - 52) (-1074); omega))

theorem nearest_half (x : ℝ) : |nearest x - x| ≤ 2 ^ unitExp x / 2 := by
  have h := roundEven_err (x * 2 ^ (-unitExp x))
  have e : nearest x - x = ((roundEven (x * 2 ^ (-unitExp x)) : ℝ) - x * 2 ^ (-unitExp x)) * 2 ^ unitExp x := by
    rw [sub_mul, cancel, nearest]
  rw [e, abs_mul, abs_of_pos (zpow_pos2 _)]
  have := mul_le_mul_of_nonneg_right h (zpow_pos2 (unitExp x)).le
  linarith

theorem log_lt {x : ℝ} (h0 : x ≠ 0) {e : ℤ} (h : |x| < 2 ^ e) : Int.log 2 |x| < e := by
  have h1 : (2 : ℝ) ^ Int.log 2 |x| ≤ |x| := by exact_mod_cast Int.zpow_log_le_self (b := 2) (by norm_num) (abs_pos.2 h0)
  exact (zpow_lt_zpow_iff_right₀ (by norm_num : (1 : ℝ) < 2)).1 (h1.trans_lt h)

theorem le_log {x : ℝ} {e : ℤ} (h : (2 : ℝ) ^ e ≤ |x|) : e ≤ Int.log 2 |x| := by
  have h1 : |x| < (2 : ℝ) ^ (Int.log 2 |x| + 1) := by exact_mod_cast Int.lt_zpow_succ_log_self (b := 2) (by norm_num) |x|
  have := (zpow_lt_zpow_iff_right₀ (by norm_num : (1 : ℝ) < 2)).1 (h.trans_lt h1)
  omega

theorem unitExp_small {x : ℝ} (h0 : x ≠ 0) (h : |x| < tiny) : unitExp x = -1074 := by
  have := log_lt h0 h
  unfold unitExp
  omega

theorem nearest_multiple {x : ℝ} {k : ℤ} (h : x = k * 2 ^ unitExp x) : nearest x = x := by
  have e : x * 2 ^ (-unitExp x) = k := by
    generalize unitExp x = q at h
    rw [h, cancel']
  rw [nearest, e, roundEven_int, ← h]

theorem nearest_zero : nearest 0 = 0 := nearest_multiple (k := 0) (by simp)

theorem nearest_err (x : ℝ) : |nearest x - x| ≤ 2⁻¹ ^ 53 * max |x| tiny := by
  rcases eq_or_ne x 0 with rfl | h0
  · rw [nearest_zero, sub_zero, abs_zero]
    exact mul_nonneg (by positivity) (le_max_left _ _)
  refine (nearest_half x).trans ?_
  have key : ∀ e : ℤ, (2 : ℝ) ^ (e - 52) / 2 = 2⁻¹ ^ 53 * 2 ^ e := by
    intro e
    rw [zpow_sub₀ two_ne]
    norm_num
    ring
  rcases lt_or_ge |x| tiny with h | h
  · rw [unitExp_small h0 h, max_eq_right h.le, tiny, ← key]
    norm_num
  · have h1 := le_log h
    have h2 : unitExp x = Int.log 2 |x| - 52 := by unfold unitExp; omega
    rw [h2, key, max_eq_left h]
    have h3 : (2 : ℝ) ^ Int.log 2 |x| ≤ |x| := by exact_mod_cast Int.zpow_log_le_self (b := 2) (by norm_num) (abs_pos.2 h0)
    exact mul_le_mul_of_nonneg_left h3 (by positivity)

theorem nearest_isDbl_self {x : ℝ} (h : IsDbl x) : nearest x = x := by
  obtain ⟨m, e, h1, h2, h3, hx⟩ := h
  rcases eq_or_ne x 0 with rfl | h0
  · exact nearest_zero
  have hq : unitExp x ≤ e := by
    have hlt : |x| < 2 ^ (53 + e) := by
      rw [hx, abs_mul, abs_of_pos (zpow_pos2 e), zpow_add₀ two_ne]
      refine mul_lt_mul_of_pos_right ?_ (zpow_pos2 e)
      exact_mod_cast h1
    have := log_lt h0 hlt
    unfold unitExp
    omega
  refine nearest_multiple (k := m * 2 ^ (e - unitExp x).toNat) ?_
  conv_lhs => rw [hx]
  push_cast
  rw [mul_assoc, ← zpow_natCast, ← zpow_add₀ two_ne]
  congr 2
  omega

/-- The sum of two doubles is exact if it is smaller than the normal numbers. -/
theorem nearest_sum {x y : ℝ} (hx : IsDbl x) (hy : IsDbl y) (h : |x + y| < tiny) : nearest (x + y) = x + y := by
  rcases eq_or_ne (x + y) 0 with h0 | h0
  · rw [h0, nearest_zero]
  have mul : ∀ z, IsDbl z → ∃ k : ℤ, z = k * 2 ^ (-1074 : ℤ) := by
    rintro z ⟨m, e, _, h2, _, rfl⟩
    refine ⟨m * 2 ^ (e + 1074).toNat, ?_⟩
    push_cast
    rw [mul_assoc, ← zpow_natCast, ← zpow_add₀ two_ne]
    congr 2
    omega
  obtain ⟨k, e1⟩ := mul x hx
  obtain ⟨j, e2⟩ := mul y hy
  refine nearest_multiple (k := k + j) ?_
  rw [unitExp_small h0 h]
  push_cast
  rw [add_mul, ← e1, ← e2]

/-- The sum of two doubles has a relative error of half a unit in the last place. -/
theorem nearest_sum_err {x y : ℝ} (hx : IsDbl x) (hy : IsDbl y) : |nearest (x + y) - (x + y)| ≤ 2⁻¹ ^ 53 * |x + y| := by
  rcases lt_or_ge |x + y| tiny with h | h
  · rw [nearest_sum hx hy h, sub_self, abs_zero]
    positivity
  · have := nearest_err (x + y)
    rwa [max_eq_left h] at this

theorem roundEven_abs_le {x : ℝ} {n : ℤ} (h : |x| ≤ n) : |roundEven x| ≤ n := by
  rw [abs_le] at h ⊢
  constructor
  · have := roundEven_mono (x := ((-n : ℤ) : ℝ)) (y := x) (by push_cast; exact h.1)
    rwa [roundEven_int] at this
  · have := roundEven_mono (x := x) (y := ((n : ℤ) : ℝ)) h.2
    rwa [roundEven_int] at this

/-- No overflow up to the largest double. -/
theorem nearest_isDbl {x : ℝ} (h : |x| ≤ big) : IsDbl (nearest x) := by
  rcases eq_or_ne x 0 with rfl | h0
  · rw [nearest_zero]; exact zero_isDbl
  have hbig : big < 2 ^ (1024 : ℤ) := by
    rw [big, show (1024 : ℤ) = 53 + 971 by norm_num, zpow_add₀ two_ne]
    refine mul_lt_mul_of_pos_right ?_ (zpow_pos2 _)
    norm_num
  have hl := log_lt h0 (h.trans_lt hbig)
  have hq : unitExp x ≤ 971 := by unfold unitExp; omega
  have hm : |x * 2 ^ (-unitExp x)| ≤ ((2 ^ 53 : ℤ) : ℝ) := by
    rw [abs_mul, abs_of_pos (zpow_pos2 _)]
    have h1 := mul_le_mul_of_nonneg_right (abs_lt_unit x).le (zpow_pos2 (-unitExp x)).le
    rw [← zpow_add₀ two_ne, show unitExp x + 53 + -unitExp x = ((53 : Nat) : ℤ) by omega, zpow_natCast] at h1
    norm_num at h1 ⊢
    exact h1
  have hr := roundEven_abs_le hm
  rcases lt_or_eq_of_le hr with hlt | heq
  · exact ⟨_, _, hlt, unitExp_ge x, hq, rfl⟩
  · have hq' : unitExp x < 971 := by
      refine lt_of_le_of_ne hq fun hc => ?_
      have h1 : |x * 2 ^ (-unitExp x)| ≤ ((2 ^ 53 - 1 : ℤ) : ℝ) := by
        rw [abs_mul, abs_of_pos (zpow_pos2 _), hc]
        have := mul_le_mul_of_nonneg_right h (zpow_pos2 (-971)).le
        rw [big, cancel'] at this
        norm_num at this ⊢
        exact this
      have := roundEven_abs_le h1
      omega
    have hcase : ∃ s : ℤ, |s| < 2 ^ 53 ∧ roundEven (x * 2 ^ (-unitExp x)) = s * 2 := by
      rcases abs_choice (roundEven (x * 2 ^ (-unitExp x))) with hc | hc
      · exact ⟨2 ^ 52, by norm_num, by rw [← hc, heq]; norm_num⟩
      · exact ⟨-2 ^ 52, by norm_num, by rw [← neg_eq_iff_eq_neg.2 hc, heq]; norm_num⟩
    obtain ⟨s, hs, es⟩ := hcase
    refine ⟨s, unitExp x + 1, hs, by have := unitExp_ge x; omega, by omega, ?_⟩
    rw [nearest, es, zpow_add_one₀ two_ne]
    push_cast
    ring

theorem isDbl_nat {n : Nat} (h : n ≤ 2 ^ 53) : IsDbl n := by
  rcases lt_or_eq_of_le h with h | rfl
  · exact ⟨n, 0, by rw [Nat.abs_cast]; exact_mod_cast h, by norm_num, by norm_num, by push_cast; norm_num⟩
  · exact ⟨2 ^ 52, 1, by norm_num, by norm_num, by norm_num, by norm_num⟩

theorem nearest_nat {n : Nat} (h : n ≤ 2 ^ 53) : nearest n = n := nearest_isDbl_self (isDbl_nat h)

theorem unitExp_mono {x y : ℝ} (hx : 0 < x) (h : x ≤ y) : unitExp x ≤ unitExp y := by
  unfold unitExp
  rw [abs_of_pos hx, abs_of_pos (hx.trans_le h)]
  exact max_le_max (by have := Int.log_mono_right (b := 2) hx h; omega) le_rfl

/-- Rounding preserves the order. -/
theorem nearest_mono {x y : ℝ} (hx : 0 < x) (h : x ≤ y) : nearest x ≤ nearest y := by
  have hy : 0 < y := hx.trans_le h
  rcases eq_or_lt_of_le (unitExp_mono hx h) with e | hlt
  · unfold nearest
    rw [e]
    have h1 := roundEven_mono (mul_le_mul_of_nonneg_right h (zpow_pos2 (-unitExp y)).le)
    exact mul_le_mul_of_nonneg_right (by exact_mod_cast h1) (zpow_pos2 _).le
  · -- the smaller number rounds to at most the power of two above it
    have h1 : nearest x ≤ 2 ^ (unitExp x + 53) := by
      have h2 : |x * 2 ^ (-unitExp x)| ≤ ((2 ^ 53 : ℤ) : ℝ) := by
        rw [abs_mul, abs_of_pos (zpow_pos2 _)]
        have h1 := mul_le_mul_of_nonneg_right (abs_lt_unit x).le (zpow_pos2 (-unitExp x)).le
        rw [← zpow_add₀ two_ne, show unitExp x + 53 + -unitExp x = ((53 : Nat) : ℤ) by omega, zpow_natCast] at h1
        norm_num at h1 ⊢
        exact h1
      have h3 := (abs_le.1 (roundEven_abs_le h2)).2
      have h4 : (roundEven (x * 2 ^ (-unitExp x)) : ℝ) ≤ 2 ^ 53 := by exact_mod_cast h3
      have := mul_le_mul_of_nonneg_right h4 (zpow_pos2 (unitExp x)).le
      rw [nearest, add_comm, zpow_add₀ two_ne]
      exact_mod_cast this
    have hy2 : unitExp y = Int.log 2 |y| - 52 := by
      have := unitExp_ge x
      unfold unitExp at hlt this ⊢
      omega
    have hy1 : (2 : ℝ) ^ (unitExp y + 52) ≤ y := by
      rw [hy2, sub_add_cancel, abs_of_pos hy]
      exact_mod_cast Int.zpow_log_le_self (b := 2) (by norm_num) hy
    have h5 : (2 : ℝ) ^ (unitExp y + 52) ≤ nearest y := by
      have h6 : ((2 ^ 52 : ℤ) : ℝ) ≤ y * 2 ^ (-unitExp y) := by
        have := mul_le_mul_of_nonneg_right hy1 (zpow_pos2 (-unitExp y)).le
        rw [← zpow_add₀ two_ne, show unitExp y + 52 + -unitExp y = ((52 : Nat) : ℤ) by omega, zpow_natCast] at this
        norm_num at this ⊢
        exact this
      have h7 := roundEven_mono h6
      rw [roundEven_int] at h7
      have h8 : (2 : ℝ) ^ 52 ≤ roundEven (y * 2 ^ (-unitExp y)) := by exact_mod_cast h7
      have := mul_le_mul_of_nonneg_right h8 (zpow_pos2 (unitExp y)).le
      rw [nearest, add_comm, zpow_add₀ two_ne]
      exact_mod_cast this
    exact h1.trans ((zpow_le_zpow_right₀ (by norm_num) (by omega)).trans h5)

/-! ### The operations on finite numbers -/

theorem zero_val (s : Bool) : (zero s).Finite ∧ (zero s).val = 0 := by
  cases s <;> simp [zero, Finite, val]

theorem round_val {x : ℝ} (s : Bool) (h : |x| ≤ big) : (round s x).Finite ∧ (round s x).val = nearest x := by
  unfold round
  split
  · next h0 => rw [h0]; exact zero_val s
  · rw [dif_pos (nearest_isDbl h)]
    exact ⟨trivial, rfl⟩

theorem val_isDbl (x : Dbl) : IsDbl x.val := by
  cases x with
  | fin x h => exact h
  | nzero => exact zero_isDbl
  | inf s => exact zero_isDbl
  | nan => exact zero_isDbl

theorem ofNat_val {n : Nat} (h : n ≤ 2 ^ 53) : (ofNat n).Finite ∧ (ofNat n).val = n := by
  have hb : |(n : ℝ)| ≤ big := by
    rw [abs_of_nonneg (Nat.cast_nonneg n)]
    have h1 : (n : ℝ) ≤ 2 ^ 53 := by exact_mod_cast h
    have h2 : (1 : ℝ) ≤ 2 ^ (970 : ℤ) := one_le_zpow₀ (by norm_num) (by norm_num)
    have h3 : (2 : ℝ) ^ (971 : ℤ) = 2 ^ (970 : ℤ) * 2 := zpow_add_one₀ two_ne 970
    rw [big, h3]
    generalize (2 : ℝ) ^ (970 : ℤ) = b at h2
    have h4 : (1 : ℝ) ≤ 2 ^ 53 - 1 := by norm_num
    have h5 : (2 : ℝ) ^ 53 ≤ (2 ^ 53 - 1) * 2 := by norm_num
    nlinarith
  have := round_val false hb
  rwa [nearest_nat h] at this

theorem add_val {x y : Dbl} (hx : x.Finite) (hy : y.Finite) (h : |x.val + y.val| ≤ big) :
    (x.add y).Finite ∧ (x.add y).val = nearest (x.val + y.val) := by
  have key : ∀ a b : Dbl, |a.val + b.val| ≤ big → ∀ c : Dbl,
      c = (if a.val + b.val = 0 then zero (a.neg? && b.neg?) else round (decide (a.val + b.val < 0)) (a.val + b.val)) →
      c.Finite ∧ c.val = nearest (a.val + b.val) := by
    rintro a b hab c rfl
    split
    · next h0 => rw [h0, nearest_zero]; exact zero_val _
    · exact round_val _ hab
  cases x <;> cases y <;> first | exact hx.elim | exact hy.elim | exact key _ _ h _ rfl

theorem neg_val {x : Dbl} (hx : x.Finite) : x.neg.Finite ∧ x.neg.val = -x.val := by
  cases x with
  | fin x h =>
    show (if x = 0 then nzero else fin (-x) (neg_isDbl h)).Finite ∧ (if x = 0 then nzero else fin (-x) (neg_isDbl h)).val = -x
    split
    · next h0 => simp [h0, Finite, val]
    · exact ⟨trivial, rfl⟩
  | nzero => simp [neg, Finite, val]
  | inf s => exact absurd hx (by simp [Finite])
  | nan => exact absurd hx (by simp [Finite])

theorem mul_val {x y : Dbl} (hx : x.Finite) (hy : y.Finite) (h : |x.val * y.val| ≤ big) :
    (x.mul y).Finite ∧ (x.mul y).val = nearest (x.val * y.val) := by
  cases x <;> cases y <;> first | exact hx.elim | exact hy.elim | exact round_val _ h

theorem div_val {x y : Dbl} (hx : x.Finite) (hy : y.Finite) (h0 : y.val ≠ 0) (h : |x.val / y.val| ≤ big) :
    (x.div y).Finite ∧ (x.div y).val = nearest (x.val / y.val) := by
  have key : ∀ a b : Dbl, b.val ≠ 0 → |a.val / b.val| ≤ big → ∀ c : Dbl,
      c = (if b.val = 0 then nan else round (a.neg? ^^ b.neg?) (a.val / b.val)) → c.Finite ∧ c.val = nearest (a.val / b.val) := by
    rintro a b hb hab c rfl
    rw [if_neg hb]
    exact round_val _ hab
  cases x <;> cases y <;> first | exact hx.elim | exact hy.elim | exact key _ _ h0 h _ rfl

end Dbl
end SqPerc
