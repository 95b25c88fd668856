import Verif.Model.Repr
import Verif.Proof.Double
import Verif.Proof.Json
import Verif.Props.TableFiles
/-
The shortest decimal number that reads back as a given double, and its text.
-/
namespace SqPerc
namespace Dbl
open Classical

variable {x y : ℝ} {n : Nat}

/-! ### Numbers close to a double -/

theorem roundEven_eq {z : ℝ} {j : ℤ} (h : |z - j| < 1 / 2) : roundEven z = j := by
  have h1 := roundEven_err z
  rw [abs_lt] at h
  rw [abs_le] at h1
  have h2 : ((roundEven z - j : ℤ) : ℝ) < 1 := by push_cast; linarith
  have h3 : (-1 : ℝ) < ((roundEven z - j : ℤ) : ℝ) := by push_cast; linarith
  have h4 : roundEven z - j < 1 := by exact_mod_cast h2
  have h5 : -1 < roundEven z - j := by exact_mod_cast h3
  omega

/-- A double is a multiple of its unit. -/
theorem isDbl_multiple (h : IsDbl x) : ∃ j : ℤ, x = j * 2 ^ unitExp x := by
  have := nearest_isDbl_self h
  exact ⟨_, this.symm⟩

theorem zpow_split (a b : ℤ) : (2 : ℝ) ^ (a + b) = 2 ^ a * 2 ^ b := zpow_add₀ two_ne a b

/-- A number that differs from a positive double by less than the `2⁻⁵⁴`th part is rounded to it. -/
theorem nearest_close (h : IsDbl x) (hx : 0 < x) (hy : |y - x| < x / 2 ^ 54) : nearest y = x := by
  obtain ⟨j, hj⟩ := isDbl_multiple h
  have hsmall : x / 2 ^ 54 ≤ x / 2 := div_le_div_of_nonneg_left hx.le (by norm_num) (by norm_num)
  have hy' := abs_lt.1 hy
  have hy0 : 0 < y := by linarith
  have bx := abs_lt_unit x
  have by' := abs_lt_unit y
  rw [abs_of_pos hx] at bx
  rw [abs_of_pos hy0] at by'
  have hgap : x / 2 ^ 54 < 2 ^ unitExp x / 2 := by
    rw [zpow_split] at bx
    rw [div_lt_iff₀ (by norm_num)]
    have : (2 : ℝ) ^ (53 : ℤ) = 2 ^ 53 := by norm_num
    rw [this] at bx
    linarith
  -- it is enough that `x` is a multiple of the unit of `y` and not too large
  have key : (∃ i : ℤ, x = i * 2 ^ unitExp y) → x ≤ 2 ^ (unitExp y + 53) → nearest y = x := by
    rintro ⟨i, hi⟩ hb
    have hr : roundEven (y * 2 ^ (-unitExp y)) = i := by
      refine roundEven_eq ?_
      have e : y * 2 ^ (-unitExp y) - i = (y - x) * 2 ^ (-unitExp y) := by
        have h0 : x * 2 ^ (-unitExp y) = i := (congrArg (· * (2 : ℝ) ^ (-unitExp y)) hi).trans (cancel' _ _)
        rw [sub_mul, h0]
      rw [e, abs_mul, abs_of_pos (zpow_pos2 _)]
      have h1 : |y - x| < 2 ^ unitExp y / 2 := by
        refine hy.trans_le ?_
        rw [div_le_iff₀ (by norm_num)]
        rw [zpow_split] at hb
        have : (2 : ℝ) ^ (53 : ℤ) = 2 ^ 53 := by norm_num
        rw [this] at hb
        linarith
      have h2 := mul_lt_mul_of_pos_right h1 (zpow_pos2 (-unitExp y))
      rw [div_mul_eq_mul_div, ← zpow_add₀ two_ne, add_neg_cancel, zpow_zero] at h2
      exact h2
    rw [nearest, hr, ← hi]
  -- multiples of the unit of `x` are at least one unit apart
  have apart : ∀ i : ℤ, (i : ℝ) * 2 ^ unitExp x < x → 2 ^ unitExp x ≤ x - i * 2 ^ unitExp x := by
    intro i hi
    have h1 : (i : ℝ) < j := lt_of_mul_lt_mul_right (hi.trans_eq hj) (zpow_pos2 _).le
    have h2 : ((i + 1 : ℤ) : ℝ) ≤ j := by exact_mod_cast h1
    have h3 := mul_le_mul_of_nonneg_right h2 (zpow_pos2 (unitExp x)).le
    push_cast at h3
    rw [← hj] at h3
    linarith
  have apart' : ∀ i : ℤ, x < (i : ℝ) * 2 ^ unitExp x → 2 ^ unitExp x ≤ i * 2 ^ unitExp x - x := by
    intro i hi
    have h1 : (j : ℝ) < i := lt_of_mul_lt_mul_right (hj.symm.trans_lt hi) (zpow_pos2 _).le
    have h2 : ((j + 1 : ℤ) : ℝ) ≤ i := by exact_mod_cast h1
    have h3 := mul_le_mul_of_nonneg_right h2 (zpow_pos2 (unitExp x)).le
    push_cast at h3
    rw [add_mul, ← hj] at h3
    linarith
  rcases le_total x y with hxy | hyx
  · refine key ?_ (hxy.trans by'.le)
    rcases eq_or_lt_of_le (unitExp_mono hx hxy) with e | hlt
    · exact ⟨j, by rw [← e]; exact hj⟩
    · exfalso
      have hu : unitExp y = Int.log 2 |y| - 52 := by
        have := unitExp_ge x
        unfold unitExp at hlt this ⊢
        omega
      have h1 : (2 : ℝ) ^ (unitExp y + 52) ≤ y := by
        rw [hu, sub_add_cancel, abs_of_pos hy0]
        exact_mod_cast Int.zpow_log_le_self (b := 2) (by norm_num) hy0
      have h2 : (2 : ℝ) ^ (unitExp x + 53) ≤ 2 ^ (unitExp y + 52) := zpow_le_zpow_right₀ (by norm_num) (by omega)
      have e : (2 : ℝ) ^ (unitExp x + 53) = ((2 ^ 53 : ℤ) : ℝ) * 2 ^ unitExp x := by
        rw [add_comm, zpow_split]; norm_num
      have h3 := apart' (2 ^ 53) (by rw [← e]; exact bx)
      rw [← e] at h3
      have := zpow_pos2 (unitExp x)
      linarith [hy'.2]
  · have hle := unitExp_mono hy0 hyx
    refine key ⟨j * 2 ^ (unitExp x - unitExp y).toNat, ?_⟩ ?_
    · push_cast
      rw [mul_assoc, ← zpow_natCast, ← zpow_split, show ((unitExp x - unitExp y).toNat : ℤ) + unitExp y = unitExp x by omega]
      exact hj
    · rcases eq_or_lt_of_le hle with e | hlt
      · rw [e]; exact bx.le
      · by_contra hc
        push Not at hc
        have h2 : (2 : ℝ) ^ (unitExp y + 53) ≤ 2 ^ (unitExp x + 52) := zpow_le_zpow_right₀ (by norm_num) (by omega)
        have e : (2 : ℝ) ^ (unitExp x + 52) = ((2 ^ 52 : ℤ) : ℝ) * 2 ^ unitExp x := by
          rw [add_comm, zpow_split]; norm_num
        have hp := zpow_pos2 (unitExp x)
        have hu : unitExp x = Int.log 2 |x| - 52 := by
          have := unitExp_ge y
          unfold unitExp at hlt this ⊢
          omega
        have h1 : (2 : ℝ) ^ (unitExp x + 52) ≤ x := by
          rw [hu, sub_add_cancel, abs_of_pos hx]
          exact_mod_cast Int.zpow_log_le_self (b := 2) (by norm_num) hx
        rcases eq_or_lt_of_le h1 with h1 | h1
        · -- `x` is a power of two
          have h3 : (2 : ℝ) ^ (unitExp y + 53) * 2 ≤ x := by
            rw [← zpow_add_one₀ two_ne, ← h1]
            refine zpow_le_zpow_right₀ (by norm_num) ?_
            rw [← h1] at hc
            have := (zpow_lt_zpow_iff_right₀ (by norm_num : (1 : ℝ) < 2)).1 hc
            omega
          linarith [hy'.1]
        · have h3 := apart (2 ^ 52) (by rw [← e]; exact h1)
          rw [← e] at h3
          linarith [hy'.1]

/-! ### The digits -/

theorem ten_pos (e : ℤ) : (0 : ℝ) < 10 ^ e := by positivity

theorem ten_ne : (10 : ℝ) ≠ 0 := by norm_num

theorem ten_cancel (x : ℝ) (q : ℤ) : x * 10 ^ (-q) * 10 ^ q = x := by
  rw [mul_assoc, ← zpow_add₀ ten_ne, neg_add_cancel, zpow_zero, mul_one]

theorem log_ten_le (hx : 0 < x) : (10 : ℝ) ^ Int.log 10 x ≤ x := by
  exact_mod_cast Int.zpow_log_le_self (b := 10) (by norm_num) hx

theorem lt_log_ten (x : ℝ) : x < 10 ^ (Int.log 10 x + 1) := by
  exact_mod_cast Int.lt_zpow_succ_log_self (b := 10) (by norm_num) x

/-- The scaled number has `n` digits before the point. -/
theorem scaled_bounds (hx : 0 < x) (hn : 0 < n) :
    (((10 ^ (n - 1) : ℕ) : ℤ) : ℝ) ≤ x * 10 ^ (-lastExp x n) ∧ x * 10 ^ (-lastExp x n) < (((10 ^ n : ℕ) : ℤ) : ℝ) := by
  have e : ∀ k : ℕ, (((10 ^ k : ℕ) : ℤ) : ℝ) = (10 : ℝ) ^ (k : ℤ) := fun k => by push_cast; rw [zpow_natCast]
  rw [e, e]
  constructor
  · have h := mul_le_mul_of_nonneg_right (log_ten_le hx) (ten_pos (-lastExp x n)).le
    rw [← zpow_add₀ ten_ne] at h
    refine le_trans (le_of_eq ?_) h
    congr 1
    unfold lastExp
    omega
  · have h := mul_lt_mul_of_pos_right (lt_log_ten x) (ten_pos (-lastExp x n))
    rw [← zpow_add₀ ten_ne] at h
    refine lt_of_lt_of_eq h ?_
    congr 1
    unfold lastExp
    omega

theorem digitsOf_some {m : ℤ} (hx : 0 < x) (hn : 0 < n) (h : digitsOf x n = some m) :
    nearest ((m : ℝ) * 10 ^ lastExp x n) = x ∧ ((10 ^ (n - 1) : ℕ) : ℤ) ≤ m ∧ m ≤ ((10 ^ n : ℕ) : ℤ) := by
  obtain ⟨b1, b2⟩ := scaled_bounds (n := n) hx hn
  unfold digitsOf at h
  simp only at h
  split at h
  · next h' =>
    obtain rfl := Option.some.inj h
    refine ⟨h', ?_, ?_⟩
    · have := roundEven_mono b1
      rwa [roundEven_int] at this
    · have := roundEven_mono b2.le
      rwa [roundEven_int] at this
  · split at h
    · next h' =>
      obtain rfl := Option.some.inj h
      exact ⟨h', Int.le_floor.2 b1, (Int.floor_lt.2 b2).le⟩
    · split at h
      · next h' =>
        obtain rfl := Option.some.inj h
        exact ⟨h', Int.cast_le.1 (b1.trans (Int.le_ceil _)), Int.ceil_le.2 b2.le⟩
      · cases h

/-- Seventeen digits are enough. -/
theorem digitsOf_seventeen (h : IsDbl x) (hx : 0 < x) : digitsOf x 17 ≠ none := by
  have h1 : nearest ((roundEven (x * 10 ^ (-lastExp x 17)) : ℝ) * 10 ^ lastExp x 17) = x := by
    refine nearest_close h hx ?_
    have e : (roundEven (x * 10 ^ (-lastExp x 17)) : ℝ) * 10 ^ lastExp x 17 - x =
        ((roundEven (x * 10 ^ (-lastExp x 17)) : ℝ) - x * 10 ^ (-lastExp x 17)) * 10 ^ lastExp x 17 := by
      rw [sub_mul, ten_cancel]
    rw [e, abs_mul, abs_of_pos (ten_pos _)]
    have h2 := mul_le_mul_of_nonneg_right (roundEven_err (x * 10 ^ (-lastExp x 17))) (ten_pos (lastExp x 17)).le
    refine h2.trans_lt ?_
    have h3 := log_ten_le hx
    have h4 : (10 : ℝ) ^ Int.log 10 x = 10 ^ lastExp x 17 * 10 ^ 16 := by
      rw [← zpow_natCast, ← zpow_add₀ ten_ne]
      congr 1
      unfold lastExp
      omega
    rw [h4] at h3
    rw [lt_div_iff₀ (by norm_num)]
    have := ten_pos (lastExp x 17)
    norm_num at h3 ⊢
    linarith
  unfold digitsOf
  simp only
  rw [if_pos h1]
  exact Option.some_ne_none _

/-- What `shortest` finds. -/
structure Shown (x : ℝ) (m n : Nat) (q : ℤ) : Prop where
  pos : 0 < n
  le : n ≤ 17
  low : 10 ^ (n - 1) ≤ m
  high : m < 10 ^ n
  reads : nearest ((m : ℝ) * 10 ^ q) = x
  found : ∃ k : ℤ, digitsOf x n = some k ∧ (k : ℝ) * 10 ^ lastExp x n = (m : ℝ) * 10 ^ q
  first : ∀ i, 0 < i → i < n → digitsOf x i = none

theorem findSome_range {β : Type} {f : Nat → Option β} : ∀ {N : Nat}, (∃ i < N, f i ≠ none) →
    ∃ i < N, (List.range N).findSome? f = f i ∧ f i ≠ none ∧ ∀ j < i, f j = none := by
  intro N
  induction N with
  | zero => rintro ⟨i, hi, _⟩; omega
  | succ N ih =>
    rintro ⟨i, hi, hf⟩
    rw [List.range_succ, List.findSome?_append]
    by_cases h : ∃ i < N, f i ≠ none
    · obtain ⟨i, h1, h2, h3, h4⟩ := ih h
      refine ⟨i, by omega, ?_, h3, h4⟩
      rw [h2]
      cases hfi : f i with
      | none => exact absurd hfi h3
      | some b => rfl
    · push Not at h
      have hN : i = N := by
        by_contra hc
        exact hf (h i (by omega))
      subst hN
      refine ⟨i, by omega, ?_, hf, h⟩
      have : (List.range i).findSome? f = none := by
        rw [List.findSome?_eq_none_iff]
        exact fun j hj => h j (List.mem_range.1 hj)
      rw [this]
      cases hfi : f i with
      | none => exact absurd hfi hf
      | some b => simp [hfi]

theorem shortest_shown (h : IsDbl x) (hx : 0 < x) : Shown x (shortest x).1 (shortest x).2.1 (shortest x).2.2 := by
  obtain ⟨i, h1, h2, h3, h4⟩ := findSome_range (f := fun i => (digitsOf x (i + 1)).map fun m => (m, i + 1)) (N := 17)
    ⟨16, by norm_num, by simpa using digitsOf_seventeen h hx⟩
  cases hd : digitsOf x (i + 1) with
  | none => simp [hd] at h3
  | some m =>
    rw [hd] at h2
    obtain ⟨r1, r2, r3⟩ := digitsOf_some hx (by omega) hd
    have hfirst : ∀ k, 0 < k → k < i + 1 → digitsOf x k = none := by
      intro k hk hki
      have := h4 (k - 1) (by omega)
      rw [show k - 1 + 1 = k by omega] at this
      simpa using this
    unfold shortest
    rw [h2]
    simp only [Option.map_some]
    split
    · next he =>
      have hv : (m : ℝ) * 10 ^ lastExp x (i + 1) = ((10 ^ (i + 1 - 1) : ℕ) : ℝ) * 10 ^ (lastExp x (i + 1) + 1) := by
        rw [he, zpow_add_one₀ ten_ne]
        push_cast
        ring
      exact ⟨Nat.succ_pos i, h1, le_rfl, Nat.pow_lt_pow_right (by norm_num) (Nat.lt_succ_self i), by rw [← hv]; exact r1, ⟨m, hd, hv⟩, hfirst⟩
    · next he =>
      have h0 : 0 ≤ m := le_trans (Int.natCast_nonneg _) r2
      have hv : (m : ℝ) * 10 ^ lastExp x (i + 1) = (m.toNat : ℝ) * 10 ^ lastExp x (i + 1) := by
        congr 1
        exact_mod_cast (Int.toNat_of_nonneg h0).symm
      have hlt : m < ((10 ^ (i + 1) : ℕ) : ℤ) := lt_of_le_of_ne r3 (by push_cast; exact he)
      exact ⟨Nat.succ_pos i, h1, by show 10 ^ (i + 1 - 1) ≤ m.toNat; omega, by show m.toNat < 10 ^ (i + 1); omega, by rw [← hv]; exact r1,
        ⟨m, hd, hv⟩, hfirst⟩

/-- Another decimal number with at most `n` digits lies beyond the numbers with `n` digits next to `x`. -/
theorem beyond {m' : Nat} {q' : ℤ} (hx : 0 < x) (hn : 0 < n) (hm : m' < 10 ^ n) :
    ((m' : ℝ) * 10 ^ q' ≤ x → (m' : ℝ) * 10 ^ q' ≤ (⌊x * 10 ^ (-lastExp x n)⌋ : ℝ) * 10 ^ lastExp x n) ∧
    (x ≤ (m' : ℝ) * 10 ^ q' → (⌈x * 10 ^ (-lastExp x n)⌉ : ℝ) * 10 ^ lastExp x n ≤ (m' : ℝ) * 10 ^ q') := by
  obtain ⟨b1, b2⟩ := scaled_bounds (n := n) hx hn
  have hp := ten_pos (lastExp x n)
  have hp' := ten_pos (-lastExp x n)
  rcases le_or_gt (lastExp x n) q' with hq | hq
  · -- a multiple of the unit
    have e : (m' : ℝ) * 10 ^ q' = ((m' * 10 ^ (q' - lastExp x n).toNat : ℤ) : ℝ) * 10 ^ lastExp x n := by
      push_cast
      rw [mul_assoc, ← zpow_natCast, ← zpow_add₀ ten_ne, show ((q' - lastExp x n).toNat : ℤ) + lastExp x n = q' by omega]
    rw [e]
    generalize (m' * 10 ^ (q' - lastExp x n).toNat : ℤ) = k
    constructor
    · intro h
      have h1 := mul_le_mul_of_nonneg_right h hp'.le
      rw [mul_assoc, ← zpow_add₀ ten_ne, add_neg_cancel, zpow_zero, mul_one] at h1
      have h2 := Int.le_floor.2 h1
      exact mul_le_mul_of_nonneg_right (by exact_mod_cast h2) hp.le
    · intro h
      have h1 := mul_le_mul_of_nonneg_right h hp'.le
      rw [mul_assoc _ ((10 : ℝ) ^ lastExp x n), ← zpow_add₀ ten_ne, add_neg_cancel, zpow_zero, mul_one] at h1
      have h2 := Int.ceil_le.2 h1
      exact mul_le_mul_of_nonneg_right (by exact_mod_cast h2) hp.le
  · -- smaller than the power of ten below `x`
    have h1 : (m' : ℝ) * 10 ^ q' < 10 ^ Int.log 10 x := by
      have h2 : (m' : ℝ) < 10 ^ (n : ℤ) := by rw [zpow_natCast]; exact_mod_cast hm
      have h3 := mul_lt_mul_of_pos_right h2 (ten_pos q')
      rw [← zpow_add₀ ten_ne] at h3
      refine h3.trans_le (zpow_le_zpow_right₀ (by norm_num) ?_)
      unfold lastExp at hq
      omega
    constructor
    · intro _
      have h2 := Int.le_floor.2 b1
      have h3 : (((10 ^ (n - 1) : ℕ) : ℤ) : ℝ) ≤ (⌊x * 10 ^ (-lastExp x n)⌋ : ℝ) := by exact_mod_cast h2
      have h4 := mul_le_mul_of_nonneg_right h3 hp.le
      refine h1.le.trans (le_trans (le_of_eq ?_) h4)
      push_cast
      rw [← zpow_natCast, ← zpow_add₀ ten_ne]
      congr 1
      unfold lastExp
      omega
    · intro h
      exact absurd (h.trans_lt h1) (not_lt.2 (log_ten_le hx))

/-- If a decimal number with at most `n` digits reads back as `x`, the next one to `x` on the same side does, too. -/
theorem reads_beyond {m' : Nat} {q' : ℤ} (hd : IsDbl x) (hx : 0 < x) (hn : 0 < n) (hm : m' < 10 ^ n) (hr : nearest ((m' : ℝ) * 10 ^ q') = x) :
    ((m' : ℝ) * 10 ^ q' ≤ x → nearest ((⌊x * 10 ^ (-lastExp x n)⌋ : ℝ) * 10 ^ lastExp x n) = x) ∧
    (x ≤ (m' : ℝ) * 10 ^ q' → nearest ((⌈x * 10 ^ (-lastExp x n)⌉ : ℝ) * 10 ^ lastExp x n) = x) := by
  obtain ⟨h1, h2⟩ := beyond (q' := q') hx hn hm
  have hz : 0 < (m' : ℝ) * 10 ^ q' := by
    refine lt_of_le_of_ne (by positivity) fun h0 => ?_
    rw [← h0, nearest_zero] at hr
    exact hx.ne hr
  have hp := ten_pos (lastExp x n)
  constructor
  · intro h
    have h3 := h1 h
    refine le_antisymm ?_ ?_
    · have h4 : (⌊x * 10 ^ (-lastExp x n)⌋ : ℝ) * 10 ^ lastExp x n ≤ x := by
        have := mul_le_mul_of_nonneg_right (Int.floor_le (x * 10 ^ (-lastExp x n))) hp.le
        rwa [ten_cancel] at this
      have := nearest_mono (hz.trans_le h3) h4
      rwa [nearest_isDbl_self hd] at this
    · have := nearest_mono hz h3
      rwa [hr] at this
  · intro h
    have h3 := h2 h
    have h4 : x ≤ (⌈x * 10 ^ (-lastExp x n)⌉ : ℝ) * 10 ^ lastExp x n := by
      have := mul_le_mul_of_nonneg_right (Int.le_ceil (x * 10 ^ (-lastExp x n))) hp.le
      rwa [ten_cancel] at this
    refine le_antisymm ?_ ?_
    · have := nearest_mono (hx.trans_le h4) h3
      rwa [hr] at this
    · have := nearest_mono hx h4
      rwa [nearest_isDbl_self hd] at this

theorem Shown.shortest {m : Nat} {q : ℤ} (S : Shown x m n q) (hd : IsDbl x) (hx : 0 < x) {k m' : Nat} (hk : k < n) (hm : m' < 10 ^ k) (q' : ℤ) :
    nearest ((m' : ℝ) * 10 ^ q') ≠ x := by
  intro hr
  have hk0 : 0 < k := by
    by_contra hc
    rw [show k = 0 by omega] at hm
    rw [show m' = 0 by omega, Nat.cast_zero, zero_mul, nearest_zero] at hr
    exact hx.ne hr
  have h1 := S.first k hk0 hk
  unfold digitsOf at h1
  simp only at h1
  split at h1
  · cases h1
  · split at h1
    · cases h1
    · next hf =>
      split at h1
      · cases h1
      · next hc =>
        rcases le_total ((m' : ℝ) * 10 ^ q') x with h | h
        · exact hf ((reads_beyond hd hx hk0 hm hr).1 h)
        · exact hc ((reads_beyond hd hx hk0 hm hr).2 h)

theorem roundEven_cases (y : ℝ) : roundEven y = ⌊y⌋ ∨ roundEven y = ⌈y⌉ := by
  rcases eq_or_ne (Int.fract y) 0 with h | h
  · left
    unfold roundEven
    rw [h, if_pos (by norm_num)]
  · have hc : ⌈y⌉ = ⌊y⌋ + 1 := by
      rw [Int.ceil_eq_iff]
      have h0 := lt_of_le_of_ne (Int.fract_nonneg y) (Ne.symm h)
      have h1 := Int.fract_lt_one y
      have e := Int.floor_add_fract y
      push_cast
      constructor <;> linarith
    rw [hc]
    unfold roundEven
    split_ifs <;> simp

theorem Shown.closest {m : Nat} {q : ℤ} (S : Shown x m n q) (hd : IsDbl x) (hx : 0 < x) {m' : Nat} (hm : m' < 10 ^ n) {q' : ℤ}
    (hr : nearest ((m' : ℝ) * 10 ^ q') = x) : |(m : ℝ) * 10 ^ q - x| ≤ |(m' : ℝ) * 10 ^ q' - x| := by
  obtain ⟨k, h1, h2⟩ := S.found
  rw [← h2]
  have hp := ten_pos (lastExp x n)
  obtain ⟨f1, f2⟩ := beyond (q' := q') hx S.pos hm
  obtain ⟨g1, g2⟩ := reads_beyond hd hx S.pos hm hr
  have lo : (⌊x * 10 ^ (-lastExp x n)⌋ : ℝ) * 10 ^ lastExp x n ≤ x := by
    have := mul_le_mul_of_nonneg_right (Int.floor_le (x * 10 ^ (-lastExp x n))) hp.le
    rwa [ten_cancel] at this
  have hi : x ≤ (⌈x * 10 ^ (-lastExp x n)⌉ : ℝ) * 10 ^ lastExp x n := by
    have := mul_le_mul_of_nonneg_right (Int.le_ceil (x * 10 ^ (-lastExp x n))) hp.le
    rwa [ten_cancel] at this
  have below : (m' : ℝ) * 10 ^ q' ≤ x → |(⌊x * 10 ^ (-lastExp x n)⌋ : ℝ) * 10 ^ lastExp x n - x| ≤ |(m' : ℝ) * 10 ^ q' - x| := fun h => by
    rw [abs_of_nonpos (by linarith), abs_of_nonpos (by linarith)]
    linarith [f1 h]
  have above : x ≤ (m' : ℝ) * 10 ^ q' → |(⌈x * 10 ^ (-lastExp x n)⌉ : ℝ) * 10 ^ lastExp x n - x| ≤ |(m' : ℝ) * 10 ^ q' - x| := fun h => by
    rw [abs_of_nonneg (by linarith), abs_of_nonneg (by linarith)]
    linarith [f2 h]
  have near : ∀ j : ℤ, |(roundEven (x * 10 ^ (-lastExp x n)) : ℝ) * 10 ^ lastExp x n - x| ≤ |(j : ℝ) * 10 ^ lastExp x n - x| := by
    intro j
    have e : ∀ i : ℤ, (i : ℝ) * 10 ^ lastExp x n - x = ((i : ℝ) - x * 10 ^ (-lastExp x n)) * 10 ^ lastExp x n := by
      intro i
      rw [sub_mul, ten_cancel]
    rw [e, e, abs_mul, abs_mul]
    exact mul_le_mul_of_nonneg_right (roundEven_nearest _ j) (abs_nonneg _)
  unfold digitsOf at h1
  simp only at h1
  split at h1
  · obtain rfl := Option.some.inj h1
    rcases le_total ((m' : ℝ) * 10 ^ q') x with h | h
    · exact (near _).trans (below h)
    · exact (near _).trans (above h)
  · next hne =>
    have hcase := roundEven_cases (x * 10 ^ (-lastExp x n))
    split at h1
    · next hfl =>
      obtain rfl := Option.some.inj h1
      rcases le_total ((m' : ℝ) * 10 ^ q') x with h | h
      · exact below h
      · rcases hcase with e | e
        · rw [e] at hne; exact absurd hfl hne
        · rw [e] at hne; exact absurd (g2 h) hne
    · next hfl =>
      split at h1
      · obtain rfl := Option.some.inj h1
        rcases le_total ((m' : ℝ) * 10 ^ q') x with h | h
        · exact absurd (g1 h) hfl
        · exact above h
      · cases h1

end Dbl

/-! ### The text -/

theorem readExponent_expText (e : ℤ) : readExponent (expText e) = some e := by
  unfold expText
  split
  · next h =>
    rw [readExponent, readNat_pad, Option.map_some]
    congr 1
    omega
  · next h =>
    rw [readExponent, readNat_pad, Option.map_some]
    congr 1
    omega

theorem toDigits_length {m n : Nat} (hn : 0 < n) (h1 : 10 ^ (n - 1) ≤ m) (h2 : m < 10 ^ n) : (Nat.toDigits 10 m).length = n := by
  have h3 := (Nat.length_toDigits_le_iff (b := 10) (k := n) (n := m) (by norm_num) hn).2 h2
  rcases Nat.lt_or_ge 1 n with h | h
  · have h4 : ¬ (Nat.toDigits 10 m).length ≤ n - 1 := fun h' => absurd
      ((Nat.length_toDigits_le_iff (b := 10) (k := n - 1) (n := m) (by norm_num) (by omega)).1 h') (by omega)
    omega
  · have : 0 < (Nat.toDigits 10 m).length := List.length_pos_of_ne_nil Nat.toDigits_ne_nil
    omega

theorem all_zeros (k : Nat) : (List.replicate k '0').all Char.isDigit = true := by
  rw [List.all_eq_true]
  intro c hc
  rw [(List.mem_replicate.1 hc).2]
  decide

/-- A text made of digits and one point. -/
theorem readNumber_point {a b : List Char} (ha : a.all Char.isDigit = true) (hb : b.all Char.isDigit = true) (hne : a ++ b ≠ []) :
    readNumber (a ++ '.' :: b) = some ((Nat.ofDigitChars 10 (a ++ b) 0 : ℚ) * 10 ^ (-(b.length : ℤ))) := by
  have h1 : 'e' ∉ a ++ '.' :: b := by
    rw [List.mem_append, List.mem_cons]
    rintro (h | h | h)
    · exact not_mem_of_digits ha (by decide) h
    · revert h; decide
    · exact not_mem_of_digits hb (by decide) h
  rw [readNumber, fields_single h1]
  simp only
  rw [readMantissa, fields_append _ _ _ (not_mem_of_digits ha (by decide)), fields_single (not_mem_of_digits hb (by decide))]
  simp only
  rw [readNat, if_pos ⟨hne, by rw [List.all_append, ha, hb]; rfl⟩, Option.map_some, zero_sub]

theorem ofDigitChars_zeros (m k : Nat) : Nat.ofDigitChars 10 (Nat.toDigits 10 m ++ List.replicate k '0') 0 = m * 10 ^ k := by
  rw [Nat.ofDigitChars_append, Nat.ofDigitChars_ten_toDigits]
  induction k with
  | zero => simp
  | succ k ih =>
    rw [List.replicate_succ', Nat.ofDigitChars_append, ih, pow_succ]
    show 10 * (m * 10 ^ k) + ('0'.toNat - '0'.toNat) = _
    rw [Nat.sub_self]
    ring

theorem pointText_read {m n : Nat} {q : ℤ} (hn : 0 < n) (h1 : 10 ^ (n - 1) ≤ m) (h2 : m < 10 ^ n) :
    readNumber (pointText (Nat.toDigits 10 m) (n + q)) = some ((m : ℚ) * 10 ^ q) := by
  have hlen := toDigits_length hn h1 h2
  have hd := digits_isDigit (n := m)
  have hr := readNat_digits m
  have ho := Nat.ofDigitChars_ten_toDigits (n := m)
  unfold pointText
  split
  · -- with an exponent
    have hexp : 'e' ∉ expText ((n : ℤ) + q - 1) := by
      intro h
      rcases expText_chars _ h with h | h | h <;> revert h <;> decide
    split
    · next h => exact absurd h Nat.toDigits_ne_nil
    · next c h =>
      rw [h] at hlen hd hr
      have hn1 : n = 1 := by simpa using hlen.symm
      show readNumber ([c] ++ 'e' :: expText _) = _
      rw [readNumber, fields_append _ _ _ (not_mem_of_digits hd (by decide)), fields_single hexp]
      simp only
      rw [readExponent_expText, Option.bind_some, readMantissa, fields_single (not_mem_of_digits hd (by decide))]
      simp only
      rw [hr, Option.map_some, hn1, Nat.cast_one, add_sub_cancel_left]
    · next c cs _ h =>
      rw [h] at hlen hd hr
      rw [List.length_cons] at hlen
      rw [List.all_cons, Bool.and_eq_true] at hd
      have hc : c ≠ '.' ∧ c ≠ 'e' := by
        constructor <;> rintro rfl <;> exact absurd hd.1 (by decide)
      have h3 : 'e' ∉ c :: '.' :: cs := by
        rw [List.mem_cons, List.mem_cons]
        rintro (h | h | h)
        · exact hc.2 h.symm
        · revert h; decide
        · exact not_mem_of_digits hd.2 (by decide) h
      rw [readNumber, fields_append _ _ _ h3, fields_single hexp]
      simp only
      rw [readExponent_expText, Option.bind_some, readMantissa]
      rw [show fields '.' (c :: '.' :: cs) = [[c], cs] by
        show fields '.' ([c] ++ '.' :: cs) = _
        rw [fields_append _ _ _ (by simpa using hc.1.symm), fields_single (not_mem_of_digits hd.2 (by decide))]]
      simp only
      rw [List.singleton_append, hr, Option.map_some, ← hlen]
      congr 3
      push_cast
      ring
  · split
    · next hle =>
      rw [show ('0' :: '.' :: List.replicate ((n : ℤ) + q).natAbs '0' ++ Nat.toDigits 10 m : List Char) =
        ['0'] ++ '.' :: (List.replicate ((n : ℤ) + q).natAbs '0' ++ Nat.toDigits 10 m) from rfl]
      rw [readNumber_point (by decide) (by rw [List.all_append, all_zeros, hd]; rfl) (by simp)]
      rw [show (['0'] ++ (List.replicate ((n : ℤ) + q).natAbs '0' ++ Nat.toDigits 10 m) : List Char) =
        List.replicate (((n : ℤ) + q).natAbs + 1) '0' ++ Nat.toDigits 10 m by rw [List.replicate_succ]; rfl]
      rw [Nat.ofDigitChars_append, Nat.ofDigitChars_replicate_zero, List.length_append, List.length_replicate, hlen]
      rw [show (Nat.ofDigitChars 10 (Nat.toDigits 10 m) (10 ^ (((n : ℤ) + q).natAbs + 1) * 0)) = m by rw [Nat.mul_zero]; exact ho]
      congr 3
      omega
    · split
      · next hle =>
        have e : (Nat.toDigits 10 m ++ List.replicate (((n : ℤ) + q).natAbs - (Nat.toDigits 10 m).length) '0' ++ ['.', '0'] : List Char) =
          (Nat.toDigits 10 m ++ List.replicate (((n : ℤ) + q).natAbs - (Nat.toDigits 10 m).length) '0') ++ '.' :: ['0'] := rfl
        rw [e, readNumber_point (by rw [List.all_append, all_zeros, hd]; rfl) (by decide) (by simp)]
        rw [List.append_assoc, show (List.replicate (((n : ℤ) + q).natAbs - (Nat.toDigits 10 m).length) '0' ++ ['0'] : List Char) =
          List.replicate (((n : ℤ) + q).natAbs - (Nat.toDigits 10 m).length + 1) '0' by rw [List.replicate_succ']]
        rw [ofDigitChars_zeros, hlen]
        rw [hlen] at hle
        congr 1
        push_cast
        rw [mul_assoc, ← zpow_natCast, ← zpow_add₀ (by norm_num)]
        congr 2
        simp only [List.length_cons, List.length_nil]
        omega
      · next hle =>
        rw [readNumber_point, List.take_append_drop, ho, List.length_drop, hlen]
        · rw [hlen] at hle
          congr 3
          omega
        · rw [List.all_eq_true] at hd ⊢
          exact fun c hc => hd c (List.mem_of_mem_take hc)
        · rw [List.all_eq_true] at hd ⊢
          exact fun c hc => hd c (List.mem_of_mem_drop hc)
        · rw [List.take_append_drop]; exact Nat.toDigits_ne_nil

theorem pointText_chars {m : Nat} {d : ℤ} {c : Char} (h : c ∈ pointText (Nat.toDigits 10 m) d) : jsonNum c = true := by
  have hd := digits_isDigit (n := m)
  rw [List.all_eq_true] at hd
  have hexp : ∀ e : ℤ, ∀ c ∈ expText e, jsonNum c = true := by
    intro e c hc
    rcases expText_chars e hc with h | rfl | rfl
    · exact jsonNum_digit h
    · decide
    · decide
  have hz : ∀ k, ∀ c ∈ List.replicate k '0', jsonNum c = true := fun k c hc => by rw [(List.mem_replicate.1 hc).2]; decide
  unfold pointText at h
  split at h
  · split at h
    · cases h
    · next e =>
      rw [e] at hd
      simp only [List.mem_cons] at h
      rcases h with rfl | rfl | h
      · exact jsonNum_digit (hd c (by simp))
      · decide
      · exact hexp _ c h
    · next e =>
      rw [e] at hd
      simp only [List.cons_append, List.mem_cons, List.mem_append] at h
      rcases h with rfl | rfl | h | rfl | h
      · exact jsonNum_digit (hd c (by simp))
      · decide
      · exact jsonNum_digit (hd c (by simp [h]))
      · decide
      · exact hexp _ c h
  · split at h
    · simp only [List.cons_append, List.mem_cons, List.mem_append] at h
      rcases h with rfl | rfl | h | h
      · decide
      · decide
      · exact hz _ c h
      · exact jsonNum_digit (hd c h)
    · split at h
      · simp only [List.mem_append, List.mem_cons, List.not_mem_nil, or_false] at h
        rcases h with (h | h) | rfl | rfl
        · exact jsonNum_digit (hd c h)
        · exact hz _ c h
        · decide
        · decide
      · simp only [List.mem_append, List.mem_cons] at h
        rcases h with h | rfl | h
        · exact jsonNum_digit (hd c (List.mem_of_mem_take h))
        · decide
        · exact jsonNum_digit (hd c (List.mem_of_mem_drop h))

theorem pointText_head {m : Nat} {d : ℤ} : ∃ c u, pointText (Nat.toDigits 10 m) d = c :: u ∧ c.isDigit = true := by
  have hd := digits_isDigit (n := m)
  rw [List.all_eq_true] at hd
  unfold pointText
  split
  · split
    · next h => exact absurd h Nat.toDigits_ne_nil
    · next h => rw [h] at hd; exact ⟨_, _, rfl, hd _ (by simp)⟩
    · next h => rw [h] at hd; exact ⟨_, _, rfl, hd _ (by simp)⟩
  · split
    · exact ⟨_, _, rfl, by decide⟩
    · next h0 =>
      rcases hm : Nat.toDigits 10 m with _ | ⟨c, cs⟩
      · exact absurd hm Nat.toDigits_ne_nil
      · rw [hm] at hd
        split
        · exact ⟨_, _, rfl, hd c (by simp)⟩
        · obtain ⟨k, hk⟩ : ∃ k, d.natAbs = k + 1 := ⟨d.natAbs - 1, by omega⟩
          rw [hk]
          exact ⟨_, _, rfl, hd c (by simp)⟩

end SqPerc
