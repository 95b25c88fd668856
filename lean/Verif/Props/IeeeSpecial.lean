import Verif.Props.Ieee
/-
Property C106, continued: ties, overflow, infinities and NaN of the floats.
-/
namespace SqPerc

namespace Dbl

/-- From here on the results of operations are infinite: halfway between the largest double and `2 ^ 1024`. -/
noncomputable def overflowAt : ℝ := 2 ^ (1024 : ℤ) - 2 ^ (970 : ℤ)

theorem overflowAt_eq : overflowAt = (2 ^ 53 - 1 / 2) * 2 ^ (971 : ℤ) := by
  rw [overflowAt, show (1024 : ℤ) = ((53 : ℕ) : ℤ) + 971 by norm_num, zpow_add₀ two_ne, zpow_natCast, show (971 : ℤ) = 970 + 1 by norm_num,
    zpow_add_one₀ two_ne]
  ring

theorem unitExp_top {x : ℝ} (h1 : big < |x|) (h2 : |x| < 2 ^ (1024 : ℤ)) : unitExp x = 971 := by
  have h0 : x ≠ 0 := by
    rintro rfl
    rw [abs_zero] at h1
    linarith [one_le_big]
  have hl := log_lt h0 h2
  have hge : (2 : ℝ) ^ (1023 : ℤ) ≤ |x| := by
    refine le_trans ?_ h1.le
    rw [big, show (1023 : ℤ) = ((52 : ℕ) : ℤ) + 971 by norm_num, zpow_add₀ two_ne, zpow_natCast]
    exact mul_le_mul_of_nonneg_right (by norm_num) (zpow_pos2 _).le
  have hl' := le_log hge
  unfold unitExp
  omega

theorem overflowAt_lt : overflowAt < 2 ^ (1024 : ℤ) := sub_lt_self _ (zpow_pos2 _)

theorem big_lt_overflowAt : big < overflowAt := by
  rw [overflowAt_eq, big]
  exact mul_lt_mul_of_pos_right (by norm_num) (zpow_pos2 _)

theorem overflowAt_pos : 0 < overflowAt := by linarith [one_le_big, big_lt_overflowAt]

theorem nearest_isDbl_iff (x : ℝ) : IsDbl (nearest x) ↔ |x| < overflowAt := by
  constructor
  · intro h
    by_contra hx
    rw [not_lt] at hx
    have top : nearest overflowAt = 2 ^ 53 * 2 ^ (971 : ℤ) := by
      have hu : unitExp overflowAt = 971 := unitExp_top (by rw [abs_of_pos overflowAt_pos]; exact big_lt_overflowAt)
        (by rw [abs_of_pos overflowAt_pos]; exact overflowAt_lt)
      rw [nearest, hu, overflowAt_eq, cancel']
      congr 1
      have hf : ⌊(2 ^ 53 - 1 / 2 : ℝ)⌋ = 2 ^ 53 - 1 := by
        rw [Int.floor_eq_iff]
        norm_num
      have hr : Int.fract (2 ^ 53 - 1 / 2 : ℝ) = 1 / 2 := by
        rw [Int.fract, hf]
        norm_num
      unfold roundEven
      rw [hr, hf, if_neg (lt_irrefl _), if_neg (lt_irrefl _), if_neg (by norm_num)]
      norm_num
    have h1 := nearest_mono overflowAt_pos hx
    rw [top] at h1
    have h2 : IsDbl (nearest |x|) := by
      rcases abs_choice x with e | e
      · rw [e]; exact h
      · rw [e, nearest_neg]; exact neg_isDbl h
    have h3 := (le_abs_self _).trans (isDbl_abs_le h2)
    have h4 := h1.trans h3
    rw [big] at h4
    have h5 := le_of_mul_le_mul_right h4 (zpow_pos2 _)
    norm_num at h5
  · intro h
    rcases le_or_gt |x| big with hb | hb
    · exact nearest_isDbl hb
    have hu := unitExp_top hb (h.trans overflowAt_lt)
    have h1 : |x * 2 ^ (-971 : ℤ)| < 2 ^ 53 - 1 / 2 := by
      rw [abs_mul, abs_of_pos (zpow_pos2 _)]
      rw [overflowAt_eq] at h
      have := mul_lt_mul_of_pos_right h (zpow_pos2 (-971))
      rwa [cancel'] at this
    have h2 := roundEven_err (x * 2 ^ (-971 : ℤ))
    have h3 : |((roundEven (x * 2 ^ (-971 : ℤ)) : ℤ) : ℝ)| < 2 ^ 53 := by
      have := abs_sub_abs_le_abs_sub ((roundEven (x * 2 ^ (-971 : ℤ)) : ℤ) : ℝ) (x * 2 ^ (-971 : ℤ))
      linarith
    refine ⟨roundEven (x * 2 ^ (-971 : ℤ)), 971, by exact_mod_cast h3, by norm_num, le_refl _, ?_⟩
    rw [nearest, hu]

theorem round_overflow (s : Bool) (x : ℝ) : ((round s x).Finite ↔ |x| < overflowAt) ∧ (overflowAt ≤ |x| → round s x = inf s) := by
  have hov : overflowAt ≤ |x| → round s x = inf s := by
    intro h
    have hn : ¬ IsDbl (nearest x) := fun hd => absurd ((nearest_isDbl_iff x).1 hd) (not_lt.2 h)
    rw [round, if_neg (fun h0 => hn (by rw [h0]; exact zero_isDbl)), dif_neg hn]
  refine ⟨⟨fun h => ?_, fun h => ?_⟩, hov⟩
  · by_contra hx
    rw [hov (not_lt.1 hx)] at h
    exact h
  · unfold round
    split
    · exact (zero_val s).1
    · rw [dif_pos ((nearest_isDbl_iff x).2 h)]; trivial

theorem roundEven_tie {y : ℝ} (h : |(roundEven y : ℝ) - y| = 1 / 2) : Even (roundEven y) := by
  have e : y = ⌊y⌋ + Int.fract y := (Int.floor_add_fract y).symm
  have h0 := Int.fract_nonneg y
  have h1 := Int.fract_lt_one y
  unfold roundEven at h ⊢
  split_ifs at h ⊢ with a b c
  · exfalso
    rw [abs_of_nonpos (by linarith)] at h
    linarith
  · exfalso
    push_cast at h
    rw [abs_of_nonneg (by linarith)] at h
    linarith
  · exact Int.even_iff.2 c
  · exact Int.even_iff.2 (by omega)

/-- A double that is as close to `x` as the rounded value is a multiple of the unit. -/
theorem tie_multiple {x d : ℝ} (hd : IsDbl d) (h : |d - x| ≤ |nearest x - x|) : ∃ k : ℤ, d = k * 2 ^ unitExp x := by
  have key : ∀ k : ℤ, |nearest x - x| ≤ |(k : ℝ) * 2 ^ unitExp x - x| := by
    intro k
    have h := roundEven_nearest (x * 2 ^ (-unitExp x)) k
    have e : ∀ m : ℤ, (m : ℝ) * 2 ^ unitExp x - x = ((m : ℝ) - x * 2 ^ (-unitExp x)) * 2 ^ unitExp x := by
      intro m
      rw [sub_mul, cancel]
    rw [nearest, e, e, abs_mul, abs_mul]
    exact mul_le_mul_of_nonneg_right h (abs_nonneg _)
  obtain ⟨m, e, hm, he, _, rfl⟩ := hd
  rcases le_or_gt (unitExp x) e with hq | hq
  · refine ⟨m * 2 ^ (e - unitExp x).toNat, ?_⟩
    push_cast
    rw [mul_assoc, ← zpow_natCast, ← zpow_add₀ two_ne, show ((e - unitExp x).toNat : ℤ) + unitExp x = e by omega]
  · have hu : unitExp x = Int.log 2 |x| - 52 := by unfold unitExp at hq ⊢; omega
    rcases eq_or_ne x 0 with rfl | h0
    · rw [nearest_zero, sub_self, sub_zero, abs_zero] at h
      exact ⟨0, by rw [abs_nonpos_iff.1 h]; simp⟩
    have h1 : (2 : ℝ) ^ (unitExp x + 52) ≤ |x| := by
      rw [hu, sub_add_cancel]
      exact_mod_cast Int.zpow_log_le_self (b := 2) (by norm_num) (abs_pos.2 h0)
    have h2 : |(m : ℝ) * 2 ^ e| ≤ 2 ^ (unitExp x + 52) := by
      rw [abs_mul, abs_of_pos (zpow_pos2 e)]
      have h3 : |(m : ℝ)| ≤ 2 ^ (53 : ℤ) := by exact_mod_cast hm.le
      refine (mul_le_mul_of_nonneg_right h3 (zpow_pos2 e).le).trans ?_
      rw [← zpow_add₀ two_ne]
      exact zpow_le_zpow_right₀ (by norm_num) (by omega)
    have e52 : (2 : ℝ) ^ (unitExp x + 52) = ((2 ^ 52 : ℤ) : ℝ) * 2 ^ unitExp x := by
      rw [add_comm, zpow_add₀ two_ne]
      norm_num
    generalize (2 : ℝ) ^ (unitExp x + 52) = B at *
    generalize (m : ℝ) * 2 ^ e = d at *
    rw [abs_le] at h2
    rcases lt_or_gt_of_ne h0 with hn | hp
    · have h5 := key (-2 ^ 52)
      rw [show ((-2 ^ 52 : ℤ) : ℝ) * 2 ^ unitExp x = -B by rw [e52]; push_cast; ring] at h5
      rw [abs_of_neg hn] at h1
      have h6 := h.trans h5
      rw [abs_of_nonneg (by linarith : 0 ≤ -B - x), abs_of_nonneg (by linarith [h2.1] : 0 ≤ d - x)] at h6
      exact ⟨-2 ^ 52, by push_cast at e52 ⊢; linarith [h2.1]⟩
    · have h5 := key (2 ^ 52)
      rw [← e52] at h5
      rw [abs_of_pos hp] at h1
      have h6 := h.trans h5
      rw [abs_of_nonpos (by linarith : B - x ≤ 0), abs_of_nonpos (by linarith [h2.2] : d - x ≤ 0)] at h6
      exact ⟨2 ^ 52, by linarith [h2.2]⟩

end Dbl

/-- C106: ties go to the even neighbour: if a second double is as close to the exact result, it is one unit away, and in that unit the result
is an even number. -/
theorem C106_ties {x d : ℝ} (hd : IsDbl d) (hne : d ≠ Dbl.nearest x) (h : |d - x| = |Dbl.nearest x - x|) :
    ∃ m e : ℤ, Even m ∧ Dbl.nearest x = m * 2 ^ e ∧ |d - Dbl.nearest x| = 2 ^ e := by
  obtain ⟨k, hk⟩ := Dbl.tie_multiple hd h.le
  have hu := Dbl.zpow_pos2 (Dbl.unitExp x)
  have hr : Dbl.nearest x = (roundEven (x * 2 ^ (-Dbl.unitExp x)) : ℝ) * 2 ^ Dbl.unitExp x := rfl
  have hx := (Dbl.cancel x (Dbl.unitExp x)).symm
  have herr := roundEven_err (x * 2 ^ (-Dbl.unitExp x))
  have hev := @Dbl.roundEven_tie (x * 2 ^ (-Dbl.unitExp x))
  generalize x * 2 ^ (-Dbl.unitExp x) = y at *
  generalize roundEven y = r at *
  have hkr : k ≠ r := fun e => hne (by rw [hk, hr, e])
  have h1 : |(k : ℝ) - y| = |(r : ℝ) - y| := by
    rw [hr, hk] at h
    generalize (2 : ℝ) ^ Dbl.unitExp x = U at *
    have e1 : (k : ℝ) * U - x = (k - y) * U := by rw [sub_mul, ← hx]
    have e2 : (r : ℝ) * U - x = (r - y) * U := by rw [sub_mul, ← hx]
    rw [e1, e2, abs_mul, abs_mul] at h
    exact mul_right_cancel₀ (abs_ne_zero.2 hu.ne') h
  have h2 : (1 : ℝ) ≤ |(k : ℝ) - r| := by
    have : (1 : ℤ) ≤ |k - r| := Int.one_le_abs (sub_ne_zero.2 hkr)
    exact_mod_cast this
  have h3 : |(k : ℝ) - r| ≤ |(k : ℝ) - y| + |(r : ℝ) - y| := by
    rw [abs_sub_comm (r : ℝ) y]
    exact abs_sub_le _ _ _
  refine ⟨r, Dbl.unitExp x, hev (by linarith), hr, ?_⟩
  rw [hr, hk, ← sub_mul, abs_mul, abs_of_pos hu, show |(k : ℝ) - r| = 1 by linarith, one_mul]

/-- A tie: `2 ^ 53 + 1` lies between two doubles. -/
example : IsDbl ((2 : ℝ) ^ 53 + 2) ∧ IsDbl ((2 : ℝ) ^ 53) ∧ |(2 : ℝ) ^ 53 + 2 - (2 ^ 53 + 1)| = |(2 : ℝ) ^ 53 - (2 ^ 53 + 1)| :=
  ⟨⟨2 ^ 52 + 1, 1, by norm_num, by norm_num, by norm_num, by norm_num⟩, ⟨2 ^ 52, 1, by norm_num, by norm_num, by norm_num, by norm_num⟩, by norm_num⟩

theorem Dbl.xor_sign {a b : ℝ} (ha : a ≠ 0) (hb : b ≠ 0) : (decide (a < 0) ^^ decide (b < 0)) = decide (a * b < 0) := by
  rcases lt_or_gt_of_ne ha with h | h <;> rcases lt_or_gt_of_ne hb with g | g
  · rw [decide_eq_true h, decide_eq_true g, decide_eq_false (not_lt.2 (mul_pos_of_neg_of_neg h g).le)]; rfl
  · rw [decide_eq_true h, decide_eq_false (not_lt.2 g.le), decide_eq_true (mul_neg_of_neg_of_pos h g)]; rfl
  · rw [decide_eq_false (not_lt.2 h.le), decide_eq_true g, decide_eq_true (mul_neg_of_pos_of_neg h g)]; rfl
  · rw [decide_eq_false (not_lt.2 h.le), decide_eq_false (not_lt.2 g.le), decide_eq_false (not_lt.2 (mul_pos h g).le)]; rfl

open Dbl in
/-- C106: when a sum, product or quotient of finite numbers is finite, and the infinity it becomes otherwise. -/
theorem C106_overflow {x y : Dbl} (hx : x.Finite) (hy : y.Finite) :
    ((x.add y).Finite ↔ |x.val + y.val| < 2 ^ (1024 : ℤ) - 2 ^ (970 : ℤ)) ∧
    (¬ (x.add y).Finite → x.add y = inf (decide (x.val + y.val < 0))) ∧
    ((x.mul y).Finite ↔ |x.val * y.val| < 2 ^ (1024 : ℤ) - 2 ^ (970 : ℤ)) ∧
    (¬ (x.mul y).Finite → x.mul y = inf (decide (x.val * y.val < 0))) ∧
    (y.val ≠ 0 → ((x.div y).Finite ↔ |x.val / y.val| < 2 ^ (1024 : ℤ) - 2 ^ (970 : ℤ)) ∧
      (¬ (x.div y).Finite → x.div y = inf (decide (x.val / y.val < 0)))) := by
  have hT : (2 : ℝ) ^ (1024 : ℤ) - 2 ^ (970 : ℤ) = overflowAt := rfl
  rw [hT]
  have key : ∀ (s : Bool) (z : ℝ), ¬ (round s z).Finite → round s z = inf s := fun s z h =>
    (round_overflow s z).2 (not_lt.1 fun h' => h ((round_overflow s z).1.2 h'))
  have sgn : ∀ {z : Dbl}, z.Finite → z.val ≠ 0 → z.neg? = decide (z.val < 0) := by
    intro z hz h0
    cases z with
    | fin z h => rfl
    | nzero => exact absurd rfl h0
    | inf s => exact hz.elim
    | nan => exact hz.elim
  have ne : ∀ (s : Bool) (z : ℝ), ¬ (round s z).Finite → z ≠ 0 := by
    rintro s z h rfl
    exact h ((round_overflow s 0).1.2 (by rw [abs_zero]; exact overflowAt_pos))
  refine ⟨?_, ?_, ?_, ?_, fun h0 => ⟨?_, ?_⟩⟩
  · rw [add_finite hx hy]
    split
    · next h => rw [h, abs_zero]; exact ⟨fun _ => overflowAt_pos, fun _ => (zero_val _).1⟩
    · exact (round_overflow _ _).1
  · rw [add_finite hx hy]
    split
    · exact fun h => absurd (zero_val _).1 h
    · exact key _ _
  · rw [mul_finite hx hy]; exact (round_overflow _ _).1
  · rw [mul_finite hx hy]
    intro h
    have hn := ne _ _ h
    have h1 : x.val ≠ 0 := left_ne_zero_of_mul hn
    have h2 : y.val ≠ 0 := right_ne_zero_of_mul hn
    rw [key _ _ h, sgn hx h1, sgn hy h2]
    congr 1
    exact xor_sign h1 h2
  · rw [div_finite hx hy h0]; exact (round_overflow _ _).1
  · rw [div_finite hx hy h0]
    intro h
    have hn := ne _ _ h
    have h1 : x.val ≠ 0 := fun e => hn (by rw [e, zero_div])
    rw [key _ _ h, sgn hx h1, sgn hy h0]
    congr 1
    rw [show decide (y.val < 0) = decide (y.val⁻¹ < 0) by rw [decide_eq_decide, inv_lt_zero], xor_sign h1 (inv_ne_zero h0), ← div_eq_mul_inv]

open Dbl in
/-- C106: the rules for infinities and NaN, and what is printed for the numbers that are not real numbers. -/
theorem C106_special (x : Dbl) (s t : Bool) :
    (nan.add x = nan ∧ x.add nan = nan ∧ nan.mul x = nan ∧ x.mul nan = nan ∧ nan.div x = nan ∧ x.div nan = nan ∧ nan.neg = nan) ∧
    (x.Finite → (inf s).add x = inf s ∧ x.add (inf s) = inf s ∧ (inf s).sub x = inf s ∧ x.sub (inf s) = inf (!s)) ∧
    ((inf s).add (inf s) = inf s ∧ (inf s).sub (inf s) = nan ∧ (inf s).add (inf !s) = nan ∧ (inf s).mul (inf t) = inf (s != t) ∧
      (inf s).div (inf t) = nan ∧ (inf s).neg = inf !s) ∧
    (x.Finite → x.val = 0 → (inf s).mul x = nan ∧ x.mul (inf s) = nan) ∧
    (0 < x.val → (inf s).mul x = inf s ∧ x.mul (inf s) = inf s ∧ (inf s).div x = inf s ∧ x.div (inf s) = zero s) ∧
    (x.val < 0 → (inf s).mul x = inf (!s) ∧ x.mul (inf s) = inf (!s) ∧ (inf s).div x = inf (!s) ∧ x.div (inf s) = zero !s) ∧
    (fmt nzero = "-0.0000000000e+00".toList ∧ fmt (inf true) = "-inf".toList ∧ fmt (inf false) = "inf".toList ∧ fmt nan = "nan".toList) := by
  refine ⟨?_, ?_, ?_, ?_, ?_, ?_, by decide +kernel⟩
  · refine ⟨?_, ?_, ?_, ?_, ?_, ?_, rfl⟩ <;> cases x <;> rfl
  · intro hx
    have hn := (neg_val hx).1
    have add1 : ∀ {z : Dbl}, z.Finite → (inf s).add z = inf s := by
      intro z hz
      cases z <;> first | rfl | exact hz.elim
    refine ⟨add1 hx, ?_, add1 hn, ?_⟩ <;> cases x <;> first | rfl | exact hx.elim
  · refine ⟨?_, ?_, ?_, ?_, rfl, rfl⟩ <;> cases s <;> rfl
  · intro hx h0
    cases x with
    | fin x h => exact ⟨if_pos h0, if_pos h0⟩
    | nzero => exact ⟨if_pos rfl, if_pos rfl⟩
    | inf s => exact hx.elim
    | nan => exact hx.elim
  · intro h0
    cases x with
    | fin x h =>
      have hp : (0 : ℝ) < x := h0
      have e : (fin x h).neg? = false := decide_eq_false (by linarith)
      refine ⟨(if_neg hp.ne').trans ?_, (if_neg hp.ne').trans ?_, ?_, ?_⟩
      · rw [e, Bool.xor_false]
      · rw [e, Bool.false_xor]
      · show inf (s ^^ _) = _
        rw [e, Bool.xor_false]
      · show zero (_ ^^ s) = _
        rw [e, Bool.false_xor]
    | _ => exact absurd h0 (lt_irrefl _)
  · intro h0
    cases x with
    | fin x h =>
      have hp : x < (0 : ℝ) := h0
      have e : (fin x h).neg? = true := decide_eq_true hp
      refine ⟨(if_neg hp.ne).trans ?_, (if_neg hp.ne).trans ?_, ?_, ?_⟩
      · rw [e, Bool.xor_true]
      · rw [e, Bool.true_xor]
      · show inf (s ^^ _) = _
        rw [e, Bool.xor_true]
      · show zero (_ ^^ s) = _
        rw [e, Bool.true_xor]
    | _ => exact absurd h0 (lt_irrefl _)

/-- The largest double is finite, doubled it overflows. -/
example : ∃ x : Dbl, x.Finite ∧ x.add x = .inf false ∧ x.neg.add x.neg = .inf true := by
  have hd : IsDbl Dbl.big := ⟨2 ^ 53 - 1, 971, by norm_num, by norm_num, by norm_num, by rw [Dbl.big]; norm_num⟩
  have hp : (0 : ℝ) < Dbl.big := lt_of_lt_of_le one_pos Dbl.one_le_big
  have hT : Dbl.overflowAt ≤ Dbl.big + Dbl.big := by
    rw [Dbl.overflowAt_eq, Dbl.big, ← add_mul]
    exact mul_le_mul_of_nonneg_right (by norm_num) (Dbl.zpow_pos2 _).le
  refine ⟨.fin _ hd, trivial, ?_, ?_⟩
  · obtain ⟨h1, h2, _⟩ := C106_overflow (x := .fin _ hd) (y := .fin _ hd) trivial trivial
    have hn : ¬ ((Dbl.fin _ hd).add (.fin _ hd)).Finite := fun h => by
      have := h1.1 h
      exact absurd (lt_of_le_of_lt (le_abs_self _) this) (not_lt.2 hT)
    rw [h2 hn]
    exact congrArg _ (decide_eq_false (by show ¬ Dbl.big + Dbl.big < 0; linarith))
  · obtain ⟨n1, n2⟩ := Dbl.neg_val (x := .fin _ hd) trivial
    obtain ⟨h1, h2, _⟩ := C106_overflow n1 n1
    rw [n2] at h1 h2
    have e : (Dbl.fin _ hd).val = Dbl.big := rfl
    rw [e] at h1 h2
    have hn : ¬ ((Dbl.fin _ hd).neg.add (Dbl.fin _ hd).neg).Finite := fun h => by
      have := h1.1 h
      rw [abs_of_neg (by linarith)] at this
      exact absurd (lt_of_le_of_lt (by linarith : Dbl.big + Dbl.big ≤ _) this) (not_lt.2 hT)
    rw [h2 hn]
    exact congrArg _ (decide_eq_true (by linarith))

end SqPerc
