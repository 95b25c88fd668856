import Verif.Props.Entropy
import Verif.Proof.Sizes
import Verif.Props.Runs
import Mathlib.Analysis.Complex.Exponential
import Mathlib.Analysis.SpecialFunctions.Log.Basic
import Mathlib.Algebra.Order.Round
import Mathlib.Data.Int.Log
import Mathlib.Tactic.Positivity
import Mathlib.Tactic.Linarith
/-
Property C65: the entropy in rounded arithmetic.
-/
namespace SqPerc

variable {L : Nat} {v : Variant} {α : Type} {val : α → ℝ} {ok : α → Prop}

/-- Arithmetic with rounding: the standard model of floating point.  `ok` says which elements are finite numbers, `val` is their value.  Every
operation on finite numbers whose exact result is neither too large nor too small gives a finite number with a relative error of at most `u`; the
integers up to `N` are represented exactly.  For IEEE doubles `u = 2⁻⁵³`, `lo` is the smallest normal number, `hi` the largest number and
`N = 2⁵³`. -/
structure Rounded {α : Type} (ar : Arith α) (val : α → ℝ) (ok : α → Prop) (u lo hi : ℝ) (N : Nat) : Prop where
  ofNat : ∀ n ≤ N, ok (ar.ofNat n) ∧ val (ar.ofNat n) = n
  add : ∀ x y, ok x → ok y → |val x + val y| ≤ hi → ok (ar.add x y) ∧ |val (ar.add x y) - (val x + val y)| ≤ u * |val x + val y|
  sub : ∀ x y, ok x → ok y → |val x - val y| ≤ hi → ok (ar.sub x y) ∧ |val (ar.sub x y) - (val x - val y)| ≤ u * |val x - val y|
  mul : ∀ x y, ok x → ok y → (val x * val y = 0 ∨ lo ≤ |val x * val y|) → |val x * val y| ≤ hi →
    ok (ar.mul x y) ∧ |val (ar.mul x y) - val x * val y| ≤ u * |val x * val y|
  div : ∀ x y, ok x → ok y → val y ≠ 0 → lo ≤ |val x / val y| → |val x / val y| ≤ hi →
    ok (ar.div x y) ∧ |val (ar.div x y) - val x / val y| ≤ u * |val x / val y|
  div_self : ∀ x, ok x → val x ≠ 0 → ok (ar.div x x) ∧ val (ar.div x x) = 1
  neg : ∀ x, ok x → ok (ar.neg x) ∧ val (ar.neg x) = -val x
  log : ∀ x, ok x → 0 < val x → lo ≤ val x → val x ≤ hi → ok (ar.log x) ∧ |val (ar.log x) - Real.log (val x)| ≤ u * |Real.log (val x)|

/-- The lattice is small enough for the precision: `64 u · 2L² ≤ 1`, and nothing the program computes over- or underflows. -/
structure Fits (u lo hi : ℝ) (L : Nat) : Prop where
  pos : 0 < L
  u0 : 0 ≤ u
  small : 64 * (u * (2 * (L * L) : Nat)) ≤ 1
  under : lo * (8 * ((2 * (L * L) : Nat) * (2 * (L * L) : Nat))) ≤ 1
  over : 4 * ((2 * (L * L) : Nat) : ℝ) ≤ hi

/-- The largest possible entropy plus one. -/
noncomputable def scale (L : Nat) : ℝ := Real.log (2 * (L * L) : Nat) + 1

namespace Fits
variable {u lo hi : ℝ}

theorem two_le (F : Fits u lo hi L) : (2 : ℝ) ≤ (2 * (L * L) : Nat) := by
  have := Nat.mul_pos F.pos F.pos
  exact_mod_cast (by omega : 2 ≤ 2 * (L * L))

theorem u_le (F : Fits u lo hi L) : u ≤ 1 / 128 := by
  have := F.two_le; have := F.small; have := F.u0; nlinarith

theorem log_nonneg (F : Fits u lo hi L) : 0 ≤ Real.log (2 * (L * L) : Nat) := Real.log_nonneg (by linarith [F.two_le])

theorem log_le (F : Fits u lo hi L) : Real.log (2 * (L * L) : Nat) ≤ (2 * (L * L) : Nat) - 1 :=
  Real.log_le_sub_one_of_pos (by linarith [F.two_le])

/-- The rounded fraction `mu`. -/
theorem frac_bounds {u b m mu m' : ℝ} (hu0 : 0 ≤ u) (hu : u ≤ 1 / 128) (hB : 2 ≤ b) (hsm : 64 * (u * b) ≤ 1) (hn1 : 1 ≤ m) (hlt : m + 1 ≤ b)
    (hmu : mu = m / b) (hd : |m' - mu| ≤ u * mu) :
    0 < m' ∧ m' ≤ 1 ∧ 3 / 4 ≤ m' * b ∧ 1 / 2 ≤ (1 - m') * b ∧ m' ≤ mu * (1 + u) ∧ |Real.log m' - Real.log mu| ≤ 2 * u ∧
      |Real.log mu| ≤ Real.log b := by
  have hb0 : 0 < b := by linarith
  have hmb : mu * b = m := by rw [hmu]; field_simp
  have hmu0 : 0 < mu := by rw [hmu]; positivity
  have hmu1 : mu ≤ 1 := by rw [hmu, div_le_one hb0]; linarith
  rw [abs_le] at hd
  have hlow : mu * (1 - u) ≤ m' := by linarith
  have hhigh : m' ≤ mu * (1 + u) := by linarith
  have hm'0 : 0 < m' := lt_of_lt_of_le (mul_pos hmu0 (by linarith)) hlow
  have hm'1b : 1 / 2 ≤ (1 - m') * b := by
    have h1 : m' ≤ mu + u := by nlinarith
    have h2 : (1 - m') * b ≥ (1 - mu - u) * b := mul_le_mul_of_nonneg_right (by linarith) hb0.le
    nlinarith
  refine ⟨hm'0, ?_, ?_, hm'1b, hhigh, ?_, ?_⟩
  · by_contra hc
    push Not at hc
    have : (m' - 1) * b > 0 := mul_pos (by linarith) hb0
    linarith
  · have h1 : mu * (1 - u) * b ≤ m' * b := mul_le_mul_of_nonneg_right hlow hb0.le
    have h2 : mu * (1 - u) * b = m * (1 - u) := by rw [← hmb]; ring
    nlinarith
  · rw [← Real.log_div hm'0.ne' hmu0.ne', abs_le]
    have hr0 : 0 < m' / mu := div_pos hm'0 hmu0
    have hr1 : m' / mu ≤ 1 + u := by rw [div_le_iff₀ hmu0]; linarith
    have hr2 : mu / m' ≤ 1 + 2 * u := by
      rw [div_le_iff₀ hm'0]
      have h1 : (1 + 2 * u) * (mu * (1 - u)) ≤ (1 + 2 * u) * m' := mul_le_mul_of_nonneg_left hlow (by linarith)
      have h2 : 0 ≤ mu * (u * (1 - 2 * u)) := mul_nonneg hmu0.le (mul_nonneg hu0 (by linarith))
      nlinarith
    constructor
    · have h1 := Real.log_le_sub_one_of_pos (div_pos hmu0 hm'0)
      have e : Real.log (m' / mu) = -Real.log (mu / m') := by rw [← Real.log_inv, inv_div]
      rw [e]; linarith
    · have := Real.log_le_sub_one_of_pos hr0
      linarith
  · rw [abs_of_nonpos (Real.log_nonpos hmu0.le hmu1), ← Real.log_inv]
    apply Real.log_le_log (by positivity)
    rw [hmu, inv_div, div_le_iff₀ (by linarith)]
    nlinarith

/-- The rounded logarithm of the rounded fraction. -/
theorem log_bounds {u b mu m' l Λ : ℝ} (hu0 : 0 ≤ u) (hu : u ≤ 1 / 128) (hB : 2 ≤ b) (hΛ : 0 ≤ Λ) (h0 : 0 < m') (h1 : m' ≤ 1)
    (h2 : 1 / 2 ≤ (1 - m') * b) (h3 : |Real.log m' - Real.log mu| ≤ 2 * u) (h4 : |Real.log mu| ≤ Λ)
    (hl : |l - Real.log m'| ≤ u * |Real.log m'|) :
    |l| ≤ (1 + u) * (Λ + 2 * u) ∧ 3 / 8 ≤ |l| * b ∧ |l - Real.log mu| ≤ u * (Λ + 2 * u) + 2 * u := by
  have hlm' : |Real.log m'| ≤ Λ + 2 * u := by
    have := abs_sub_abs_le_abs_sub (Real.log m') (Real.log mu); linarith
  have hul : u * |Real.log m'| ≤ u * (Λ + 2 * u) := mul_le_mul_of_nonneg_left hlm' hu0
  have hlm'b : 1 / 2 ≤ |Real.log m'| * b := by
    have h5 := Real.log_le_sub_one_of_pos h0
    have h6 : 1 - m' ≤ |Real.log m'| := by rw [abs_of_nonpos (by linarith)]; linarith
    have h7 : (1 - m') * b ≤ |Real.log m'| * b := mul_le_mul_of_nonneg_right h6 (by linarith)
    linarith
  refine ⟨?_, ?_, ?_⟩
  · have := abs_sub_abs_le_abs_sub l (Real.log m')
    linarith
  · have h5 := abs_sub_abs_le_abs_sub (Real.log m') l
    rw [abs_sub_comm] at h5
    have h6 : (1 - u) * |Real.log m'| ≤ |l| := by linarith
    have h7 : (1 - u) * |Real.log m'| * b ≤ |l| * b := mul_le_mul_of_nonneg_right h6 (by linarith)
    have h8 : (1 - u) * (1 / 2) ≤ (1 - u) * (|Real.log m'| * b) := mul_le_mul_of_nonneg_left hlm'b (by linarith)
    linarith
  · have h5 := abs_sub_le l (Real.log m') (Real.log mu)
    linarith

/-- The rounded product. -/
theorem prod_bounds {u mu m' l t Λ x : ℝ} (hu0 : 0 ≤ u) (hu : u ≤ 1 / 128) (hΛ : 0 ≤ Λ) (h0 : 0 < m') (hmu : 0 < mu)
    (hhigh : m' ≤ mu * (1 + u)) (hd : |m' - mu| ≤ u * mu) (hla : |l| ≤ (1 + u) * (Λ + 2 * u))
    (hll : |l - x| ≤ u * (Λ + 2 * u) + 2 * u) (ht : |t - m' * l| ≤ u * |m' * l|) :
    |t - mu * x| ≤ 4 * (u * (Λ + 1)) * mu := by
  have habs : |m' * l| = m' * |l| := by rw [abs_mul, abs_of_pos h0]
  have e : m' * l - mu * x = (m' - mu) * l + mu * (l - x) := by ring
  have h3 : |m' * l - mu * x| ≤ u * mu * |l| + mu * (u * (Λ + 2 * u) + 2 * u) := by
    rw [e]
    refine (abs_add_le _ _).trans (add_le_add ?_ ?_)
    · rw [abs_mul]
      exact mul_le_mul_of_nonneg_right hd (abs_nonneg _)
    · rw [abs_mul, abs_of_pos hmu]
      exact mul_le_mul_of_nonneg_left hll hmu.le
  have h4 := abs_sub_le t (m' * l) (mu * x)
  have h5 : u * |m' * l| ≤ u * (mu * (1 + u) * |l|) := by
    rw [habs]
    exact mul_le_mul_of_nonneg_left (mul_le_mul_of_nonneg_right hhigh (abs_nonneg _)) hu0
  have h6 : |t - mu * x| ≤ u * mu * ((2 + u) * |l| + (Λ + 2 * u) + 2) := by
    have : u * mu * ((2 + u) * |l| + (Λ + 2 * u) + 2) =
      u * (mu * (1 + u) * |l|) + (u * mu * |l| + mu * (u * (Λ + 2 * u) + 2 * u)) := by ring
    linarith
  refine h6.trans ?_
  have h7 : (2 + u) * |l| + (Λ + 2 * u) + 2 ≤ 4 * (Λ + 1) := by
    have h8 : (2 + u) * |l| ≤ (2 + u) * ((1 + u) * (Λ + 2 * u)) := mul_le_mul_of_nonneg_left hla (by linarith)
    have h9 : (2 + u) * (1 + u) ≤ 21 / 10 := by nlinarith
    have h10 : (2 + u) * (1 + u) * (Λ + 2 * u) ≤ 21 / 10 * (Λ + 2 * u) :=
      mul_le_mul_of_nonneg_right h9 (by linarith)
    linarith
  have h11 : u * mu * ((2 + u) * |l| + (Λ + 2 * u) + 2) ≤ u * mu * (4 * (Λ + 1)) :=
    mul_le_mul_of_nonneg_left h7 (by positivity)
  linarith

theorem lo_le (F : Fits u lo hi L) : lo * (2 * (L * L) : Nat) ≤ 1 / 16 := by
  have hB := F.two_le
  have hun := F.under
  rcases le_or_gt lo 0 with hlo | hlo
  · have := mul_nonpos_of_nonpos_of_nonneg hlo (by linarith : (0 : ℝ) ≤ (2 * (L * L) : Nat)); linarith
  · have : lo * (2 * (L * L) : Nat) * 2 ≤ lo * (2 * (L * L) : Nat) * (2 * (L * L) : Nat) :=
      mul_le_mul_of_nonneg_left hB (by positivity)
    linarith

/-- One summand `mu * log(mu)`. -/
theorem term (F : Fits u lo hi L) {env : Env α} (R : Rounded env.ar val ok u lo hi (2 * (L * L))) {n : Nat} (h1 : 1 ≤ n) (h2 : n ≤ 2 * (L * L)) :
    ok (muLog env L n) ∧ |val (muLog env L n) - mulog L n| ≤ 4 * (u * scale L) * ((n : ℝ) / (2 * (L * L) : Nat)) := by
  have hB := F.two_le
  have hu := F.u_le
  have hu0 := F.u0
  have hl0 := F.log_nonneg
  have hl1 := F.log_le
  have hsm := F.small
  have hun := F.under
  have hov := F.over
  have hlob := F.lo_le
  have hn1 : (1 : ℝ) ≤ n := by exact_mod_cast h1
  unfold muLog mulog scale
  obtain ⟨o1, w1⟩ := R.ofNat _ h2
  obtain ⟨o2, w2⟩ := R.ofNat _ le_rfl
  generalize hx1 : env.ar.ofNat n = x1 at *
  rcases Nat.lt_or_ge n (2 * (L * L)) with hlt | hge
  · have hltR : (n : ℝ) + 1 ≤ (2 * (L * L) : Nat) := by exact_mod_cast hlt
    generalize env.ar.ofNat (2 * (L * L)) = x2 at *
    generalize hb : (((2 * (L * L) : Nat)) : ℝ) = b at *
    generalize (n : ℝ) = m at *
    clear F hb
    obtain ⟨mu, hmu⟩ : ∃ mu, mu = m / b := ⟨_, rfl⟩
    have hb0 : 0 < b := by linarith
    have hmu0 : 0 < mu := by rw [hmu]; positivity
    have hmb : mu * b = m := by rw [hmu]; field_simp
    have lo_of : ∀ x, 3 / 4 ≤ x * b → lo ≤ x := fun x hx => le_of_mul_le_mul_right (by linarith : lo * b ≤ x * b) hb0
    have hmu1 : mu ≤ 1 := by rw [hmu, div_le_one hb0]; linarith
    obtain ⟨od, hd⟩ := R.div x1 x2 o1 o2 (by rw [w2]; exact hb0.ne') (by rw [w1, w2, ← hmu, abs_of_pos hmu0]; exact lo_of _ (by linarith))
      (by rw [w1, w2, ← hmu, abs_of_pos hmu0]; linarith)
    rw [w1, w2, ← hmu, abs_of_pos hmu0] at hd
    rw [← hmu]
    generalize env.ar.div x1 x2 = d at *
    obtain ⟨m', hm'⟩ : ∃ m', m' = val d := ⟨_, rfl⟩
    rw [← hm'] at hd
    obtain ⟨a1, a2, a3, a4, a5, a6, a7⟩ := frac_bounds hu0 hu hB hsm hn1 hltR hmu hd
    obtain ⟨ol, hlog⟩ := R.log d od (hm' ▸ a1) (hm' ▸ lo_of _ a3) (by rw [← hm']; linarith)
    generalize env.ar.log d = y at *
    obtain ⟨l, hl⟩ : ∃ l, l = val y := ⟨_, rfl⟩
    rw [← hl, ← hm'] at hlog
    obtain ⟨b1, b2, b3⟩ := log_bounds hu0 hu hB hl0 a1 a2 a4 a6 a7 hlog
    have habs : |m' * l| = m' * |l| := by rw [abs_mul, abs_of_pos a1]
    have hla2 : |l| ≤ 2 * Real.log b + 1 := by
      have h3 : (1 + u) * (Real.log b + 2 * u) ≤ (1 + 1 / 128) * (Real.log b + 2 * (1 / 128)) :=
        mul_le_mul (by linarith) (by linarith) (by linarith) (by linarith)
      linarith
    obtain ⟨om, hmul⟩ := R.mul d y od ol (.inr (by
      rw [← hm', ← hl, habs]
      refine le_of_mul_le_mul_right ?_ (mul_pos hb0 hb0)
      have h2 : 3 / 4 * (3 / 8) ≤ (m' * b) * (|l| * b) := mul_le_mul a3 b2 (by norm_num) (by positivity)
      have e : m' * |l| * (b * b) = (m' * b) * (|l| * b) := by ring
      rw [e]; linarith)) (by
      rw [← hm', ← hl, habs]
      have : m' * |l| ≤ 1 * |l| := mul_le_mul_of_nonneg_right a2 (abs_nonneg _)
      linarith)
    rw [← hm', ← hl] at hmul
    exact ⟨om, prod_bounds hu0 hu hl0 a1 hmu0 a5 hd b1 b3 hmul⟩
  · have hnB : n = 2 * (L * L) := le_antisymm h2 hge
    have hb0 : (((2 * (L * L) : Nat)) : ℝ) ≠ 0 := by linarith
    obtain ⟨od, wd⟩ := R.div_self _ o2 (by rw [w2]; exact hb0)
    have ex : env.ar.div x1 (env.ar.ofNat (2 * (L * L))) = env.ar.div (env.ar.ofNat (2 * (L * L))) (env.ar.ofNat (2 * (L * L))) := by
      rw [← hx1, hnB]
    rw [ex, hnB, _root_.div_self hb0]
    generalize env.ar.div (env.ar.ofNat (2 * (L * L))) (env.ar.ofNat (2 * (L * L))) = d at *
    have hlo1 : lo ≤ 1 := by
      refine le_of_mul_le_mul_right ?_ (by linarith : (0 : ℝ) < (2 * (L * L) : Nat))
      linarith
    obtain ⟨ol, h0⟩ := R.log d od (by rw [wd]; exact one_pos) (by rw [wd]; exact hlo1) (by rw [wd]; linarith)
    rw [wd, Real.log_one, abs_zero, mul_zero, sub_zero] at h0
    generalize env.ar.log d = y at *
    have hy := abs_nonpos_iff.1 h0
    obtain ⟨om, hm⟩ := R.mul d y od ol (.inl (by rw [hy, mul_zero])) (by rw [hy, mul_zero, abs_zero]; linarith)
    rw [hy, mul_zero, abs_zero, mul_zero, sub_zero] at hm
    rw [abs_nonpos_iff.1 hm, Real.log_one, mul_zero, sub_zero, abs_zero, mul_one]
    have := mul_nonneg hu0 (by linarith : 0 ≤ Real.log (2 * (L * L) : Nat) + 1)
    exact ⟨om, by linarith⟩

/-- A sum computed term by term. -/
theorem fold_err {ι : Type} {env : Env α} {N : Nat} (R : Rounded env.ar val ok u lo hi N) (hu0 : 0 ≤ u) {Λ : ℝ} (hΛ : 0 ≤ Λ) (f δ : ι → ℝ) (f' : ι → α) (l : List ι)
    (hf : ∀ g ∈ l, f g ≤ 0) (hδ : ∀ g ∈ l, ok (f' g) ∧ |val (f' g) - f g| ≤ δ g) (x D : ℝ) (x' : α) (hx : x ≤ 0) (hs : -Λ ≤ x + (l.map f).sum)
    (hok : ok x') (hD : |val x' - x| ≤ D)
    (hh : Λ + (1 + u) ^ l.length * (D + (l.map δ).sum + l.length * (u * Λ)) ≤ hi) :
    ok (l.foldl (fun h g => env.ar.add h (f' g)) x') ∧ |val (l.foldl (fun h g => env.ar.add h (f' g)) x') - (x + (l.map f).sum)| ≤
      (1 + u) ^ l.length * (D + (l.map δ).sum + l.length * (u * Λ)) := by
  induction l generalizing x x' D with
  | nil => exact ⟨hok, by simpa using hD⟩
  | cons a l ih =>
    rw [List.foldl_cons, List.map_cons, List.sum_cons, ← add_assoc]
    rw [List.map_cons, List.sum_cons, List.length_cons] at hh ⊢
    rw [List.map_cons, List.sum_cons, ← add_assoc] at hs
    have hfa := hf a (by simp)
    obtain ⟨oa, hda⟩ := hδ a (by simp)
    have hδ0 : ∀ g ∈ a :: l, 0 ≤ δ g := fun g hg => (abs_nonneg _).trans (hδ g hg).2
    have hls : (l.map f).sum ≤ 0 := by
      have h1 : 0 ≤ (l.map fun g => -f g).sum := List.sum_nonneg fun y hy => by
        obtain ⟨g, hg, rfl⟩ := List.mem_map.1 hy
        exact neg_nonneg.2 (hf g (by simp [hg]))
      have h2 : (l.map fun g => -f g).sum = -(l.map f).sum := by
        clear hh hs h1 ih hf hδ hδ0
        induction l with
        | nil => simp
        | cons b l ih => rw [List.map_cons, List.sum_cons, List.map_cons, List.sum_cons, ih]; ring
      linarith
    have hδs : 0 ≤ (l.map δ).sum := List.sum_nonneg fun y hy => by
      obtain ⟨g, hg, rfl⟩ := List.mem_map.1 hy
      exact hδ0 g (by simp [hg])
    have hD0 : 0 ≤ D := (abs_nonneg _).trans hD
    have hda0 := hδ0 a (by simp)
    have hp1 : (1 : ℝ) ≤ (1 + u) ^ l.length := one_le_pow₀ (by linarith)
    have huΛ : 0 ≤ u * Λ := mul_nonneg hu0 hΛ
    have hln : (0 : ℝ) ≤ l.length := Nat.cast_nonneg _
    have hD1 : (1 + u) * (D + δ a) + u * Λ ≤ (1 + u) * (D + δ a + u * Λ) := by nlinarith
    have key : (1 + u) ^ l.length * ((1 + u) * (D + δ a) + u * Λ + (l.map δ).sum + l.length * (u * Λ)) ≤
        (1 + u) ^ (l.length + 1) * (D + (δ a + (l.map δ).sum) + (l.length + 1 : Nat) * (u * Λ)) := by
      rw [pow_succ, mul_assoc]
      refine mul_le_mul_of_nonneg_left ?_ (by linarith)
      push_cast
      have := mul_nonneg hu0 hδs
      have := mul_nonneg hu0 (mul_nonneg hln huΛ)
      nlinarith
    have hxa : |x + f a| ≤ Λ := abs_le.2 ⟨by linarith, by linarith⟩
    have hxa' : |val x' + val (f' a) - (x + f a)| ≤ D + δ a := by
      have : val x' + val (f' a) - (x + f a) = (val x' - x) + (val (f' a) - f a) := by ring
      rw [this]
      exact (abs_add_le _ _).trans (add_le_add hD hda)
    have hb : |val x' + val (f' a)| ≤ Λ + (D + δ a) := by
      have := abs_sub_abs_le_abs_sub (val x' + val (f' a)) (x + f a); linarith
    have hbig : D + δ a ≤ (1 + u) ^ (l.length + 1) * (D + (δ a + (l.map δ).sum) + (l.length + 1 : Nat) * (u * Λ)) := by
      refine le_trans ?_ key
      have h1 : D + δ a ≤ (1 + u) * (D + δ a) + u * Λ + (l.map δ).sum + l.length * (u * Λ) := by
        have := mul_nonneg hu0 (add_nonneg hD0 hda0)
        have := mul_nonneg hln huΛ
        linarith
      refine h1.trans (le_mul_of_one_le_left ?_ hp1)
      linarith
    obtain ⟨oadd, hadd⟩ := R.add x' (f' a) hok oa (by linarith)
    have hD' : |val (env.ar.add x' (f' a)) - (x + f a)| ≤ (1 + u) * (D + δ a) + u * Λ := by
      have h1 := abs_sub_le (val (env.ar.add x' (f' a))) (val x' + val (f' a)) (x + f a)
      have h2 : u * |val x' + val (f' a)| ≤ u * (Λ + (D + δ a)) := mul_le_mul_of_nonneg_left hb hu0
      linarith
    obtain ⟨i1, i2⟩ := ih (fun g hg => hf g (by simp [hg])) (fun g hg => hδ g (by simp [hg])) _ _ _ (by linarith) hs oadd hD' (by linarith)
    exact ⟨i1, i2.trans key⟩

theorem pow_le (F : Fits u lo hi L) {m : Nat} (hm : m ≤ 2 * (L * L)) : (1 + u) ^ m ≤ 64 / 63 := by
  have hu0 := F.u0
  have hm' : (m : ℝ) ≤ (2 * (L * L) : Nat) := by exact_mod_cast hm
  have h1 : (1 + u) ^ m ≤ Real.exp u ^ m := pow_le_pow_left₀ (by linarith) (by linarith [Real.add_one_le_exp u]) m
  rw [← Real.exp_nat_mul] at h1
  have hmu : (m : ℝ) * u ≤ 1 / 64 := by
    have := mul_le_mul_of_nonneg_right hm' hu0
    have := F.small
    linarith
  have h2 := Real.exp_le_exp.2 hmu
  have h3 := Real.exp_bound_div_one_sub_of_interval (x := 1 / 64) (by norm_num) (by norm_num)
  norm_num at h3
  linarith

theorem scale_pos (F : Fits u lo hi L) : 1 ≤ scale L := by have := F.log_nonneg; unfold scale; linarith

theorem scale_le (F : Fits u lo hi L) : scale L ≤ (2 * (L * L) : Nat) := by have := F.log_le; unfold scale; linarith

/-- `u · scale · (2L²)` is small. -/
theorem drift_le (F : Fits u lo hi L) {x : ℝ} (hx : x ≤ (2 * (L * L) : Nat)) : u * scale L * x ≤ scale L / 64 := by
  have h1 : u * x ≤ u * (2 * (L * L) : Nat) := mul_le_mul_of_nonneg_left hx F.u0
  have h2 := F.small
  have h3 : (u * x) * scale L ≤ (1 / 64) * scale L := mul_le_mul_of_nonneg_right (by linarith) (by linarith [F.scale_pos])
  linarith

/-- A rounded sum of `mu * log(mu)` over distinct clusters. -/
theorem sum_err (F : Fits u lo hi L) {env : Env α} (R : Rounded env.ar val ok u lo hi (2 * (L * L))) {V : LV} {P : PV} (C : Core L V P)
    (l : List Int) (hn : l.Nodup) (hg : ∀ g ∈ l, g ∈ gids L) (hp : ∀ g ∈ l, 0 < P.len g) :
    ok (l.foldl (fun h g => env.ar.add h (muLog env L (P.len g))) (env.ar.ofNat 0)) ∧
    |val (l.foldl (fun h g => env.ar.add h (muLog env L (P.len g))) (env.ar.ofNat 0)) - ∑ g ∈ l.toFinset, mulog L (P.len g)| ≤
      64 / 63 * ((l.length + 4) * (u * scale L)) := by
  have hB := F.two_le
  have hu0 := F.u0
  have hsc := F.scale_pos
  have hscB := F.scale_le
  have hl0 := F.log_nonneg
  have hsub : l.toFinset ⊆ gids L := fun g h => hg g (List.mem_toFinset.1 h)
  have hB0 : (0 : ℝ) < (2 * (L * L) : Nat) := by linarith
  have hBn : 0 < 2 * (L * L) := by exact_mod_cast hB0
  have hfrac : ∑ g ∈ l.toFinset, (P.len g : ℝ) / (2 * (L * L) : Nat) ≤ 1 := by
    rw [← Finset.sum_div, div_le_one hB0, ← Nat.cast_sum]
    have h1 : ∑ g ∈ l.toFinset, P.len g ≤ ∑ g ∈ gids L, P.len g := Finset.sum_le_sum_of_subset hsub
    rw [C.sum_len] at h1
    exact_mod_cast h1
  have hlen : l.length ≤ 2 * (L * L) := by
    rw [← List.toFinset_card_of_nodup hn, ← card_gids L]
    exact Finset.card_le_card hsub
  have hlow : -Real.log (2 * (L * L) : Nat) ≤ ∑ g ∈ l.toFinset, mulog L (P.len g) := by
    have h1 : ∑ g ∈ l.toFinset, -((P.len g : ℝ) / (2 * (L * L) : Nat) * Real.log (2 * (L * L) : Nat)) ≤
        ∑ g ∈ l.toFinset, mulog L (P.len g) := Finset.sum_le_sum fun g _ => mulog_lower hBn
    rw [Finset.sum_neg_distrib, ← Finset.sum_mul] at h1
    have h2 := mul_le_mul_of_nonneg_right hfrac hl0
    linarith
  have hδ : (l.map fun g => 4 * (u * scale L) * ((P.len g : ℝ) / (2 * (L * L) : Nat))).sum ≤ 4 * (u * scale L) := by
    rw [← List.sum_toFinset _ hn, ← Finset.mul_sum]
    have h0 : 0 ≤ 4 * (u * scale L) := by have := mul_nonneg hu0 (by linarith : 0 ≤ scale L); linarith
    have := mul_le_mul_of_nonneg_left hfrac h0
    linarith
  have hlog : u * Real.log (2 * (L * L) : Nat) ≤ u * scale L := mul_le_mul_of_nonneg_left (by unfold scale; linarith) hu0
  have husc : 0 ≤ u * scale L := mul_nonneg hu0 (by linarith)
  have hlenR : (l.length : ℝ) ≤ (2 * (L * L) : Nat) := by exact_mod_cast hlen
  have hfin : (1 + u) ^ l.length * (0 + (l.map fun g => 4 * (u * scale L) * ((P.len g : ℝ) / (2 * (L * L) : Nat))).sum +
      l.length * (u * Real.log (2 * (L * L) : Nat))) ≤ 64 / 63 * ((l.length + 4) * (u * scale L)) := by
    have h1 : (l.length : ℝ) * (u * Real.log (2 * (L * L) : Nat)) ≤ l.length * (u * scale L) :=
      mul_le_mul_of_nonneg_left hlog (Nat.cast_nonneg _)
    have h2 : 0 + (l.map fun g => 4 * (u * scale L) * ((P.len g : ℝ) / (2 * (L * L) : Nat))).sum +
      l.length * (u * Real.log (2 * (L * L) : Nat)) ≤ (l.length + 4) * (u * scale L) := by linarith
    have h3 := mul_le_mul_of_nonneg_left h2 (by positivity : (0 : ℝ) ≤ (1 + u) ^ l.length)
    have h4 := mul_le_mul_of_nonneg_right (F.pow_le hlen) (mul_nonneg (by positivity : (0 : ℝ) ≤ l.length + 4) husc)
    linarith
  have hd1 := F.drift_le hlenR
  have hd2 := F.drift_le (x := 1) (by linarith)
  have := fold_err R hu0 hl0 (fun g => mulog L (P.len g)) (fun g => 4 * (u * scale L) * ((P.len g : ℝ) / (2 * (L * L) : Nat)))
    (fun g => muLog env L (P.len g)) l
    (fun g h => mulog_nonpos (C.len_le (hg g h)))
    (fun g h => F.term R (hp g h) (C.len_le (hg g h))) 0 0 (env.ar.ofNat 0) le_rfl
    (by rw [zero_add, ← List.sum_toFinset _ hn]; exact hlow) (R.ofNat 0 (Nat.zero_le _)).1 (by rw [(R.ofNat 0 (Nat.zero_le _)).2]; simp)
    (by
      have h5 := F.log_le
      have h6 := F.over
      have h7 : 64 / 63 * ((l.length + 4) * (u * scale L)) ≤ 2 * scale L := by linarith
      have h8 : Real.log (2 * (L * L) : Nat) + 2 * scale L ≤ hi := by linarith
      linarith)
  rw [zero_add, ← List.sum_toFinset _ hn] at this
  exact ⟨this.1, this.2.trans hfin⟩

end Fits

theorem adjSum_foldl {env : Env α} {V : LV} {P : PV} {k : Nat} : adjSum env L V P k =
    (env.set.iter ((siteBonds L k).map V.bg)).foldl (fun h g => env.ar.add h (muLog env L (P.len g))) (env.ar.ofNat 0) := rfl

/-- The exact entropy of the clusters. -/
noncomputable def exactEnt (L : Nat) (P : PV) : ℝ := -∑ g ∈ gids L, mulog L (P.len g)

theorem exactEnt_init (hL : 0 < L) : exactEnt L (PV.init (2 * (L * L))) = Real.log (2 * (L * L) : Nat) :=
  (EntInv.init (so := ⟨List.dedup, List.nodup_dedup, fun _ _ => List.mem_dedup⟩) hL none).symm

theorem Core.exactEnt_bounds {V : LV} {P : PV} (C : Core L V P) (hL : 0 < L) (s : Finset Int) (hs : s ⊆ gids L) :
    0 ≤ -∑ g ∈ s, mulog L (P.len g) ∧ -∑ g ∈ s, mulog L (P.len g) ≤ Real.log (2 * (L * L) : Nat) := by
  have hB : 0 < 2 * (L * L) := by have := Nat.mul_pos hL hL; omega
  have hB' : (0 : ℝ) < (2 * (L * L) : Nat) := by exact_mod_cast hB
  constructor
  · rw [neg_nonneg]
    exact Finset.sum_nonpos fun g hg => mulog_nonpos (C.len_le (hs hg))
  · rw [neg_le]
    have h1 : ∑ g ∈ gids L, -((P.len g : ℝ) / (2 * (L * L) : Nat) * Real.log (2 * (L * L) : Nat)) = -Real.log (2 * (L * L) : Nat) := by
      rw [Finset.sum_neg_distrib, ← Finset.sum_mul, ← Finset.sum_div, ← Nat.cast_sum, C.sum_len, div_self hB'.ne', one_mul]
    have h2 : ∑ g ∈ gids L, -((P.len g : ℝ) / (2 * (L * L) : Nat) * Real.log (2 * (L * L) : Nat)) ≤
        ∑ g ∈ s, -((P.len g : ℝ) / (2 * (L * L) : Nat) * Real.log (2 * (L * L) : Nat)) := by
      rw [Finset.sum_neg_distrib, Finset.sum_neg_distrib]
      refine neg_le_neg (Finset.sum_le_sum_of_subset_of_nonneg hs fun g _ _ => ?_)
      exact mul_nonneg (by positivity) (Real.log_nonneg (by exact_mod_cast hB))
    rw [← h1]
    exact h2.trans (Finset.sum_le_sum fun g _ => mulog_lower hB)

/-- The drift after `n` placements. -/
def DriftInv (val : α → ℝ) (ok : α → Prop) (u : ℝ) (L : Nat) (A : Abs α) : Prop :=
  ok A.ent ∧ |val A.ent - exactEnt L A.P| ≤ 20 * (u * scale L) * (A.count + 1)

section
variable {u lo hi : ℝ} {env : Env α}

theorem DriftInv.init (F : Fits u lo hi L) (R : Rounded env.ar val ok u lo hi (2 * (L * L))) (sel : Option Nat) :
    DriftInv val ok u L (Abs.init env L sel) := by
  have hB := F.two_le
  have hlo := F.lo_le
  have hov := F.over
  have hsc := F.scale_pos
  show ok (env.ar.log (env.ar.ofNat (2 * (L * L)))) ∧
    |val (env.ar.log (env.ar.ofNat (2 * (L * L)))) - exactEnt L (PV.init (2 * (L * L)))| ≤ 20 * (u * scale L) * ((0 : Nat) + 1)
  obtain ⟨o1, w1⟩ := R.ofNat _ le_rfl
  rw [exactEnt_init F.pos]
  have hlo2 : lo ≤ (2 * (L * L) : Nat) := by
    refine le_of_mul_le_mul_right ?_ (by linarith : (0 : ℝ) < (2 * (L * L) : Nat))
    nlinarith
  obtain ⟨ol, h⟩ := R.log _ o1 (by rw [w1]; linarith) (by rw [w1]; exact hlo2) (by rw [w1]; linarith)
  rw [w1, abs_of_nonneg F.log_nonneg] at h
  have h1 : u * Real.log (2 * (L * L) : Nat) ≤ u * scale L := mul_le_mul_of_nonneg_left (by unfold scale; linarith) F.u0
  have h2 := mul_nonneg F.u0 (by linarith : 0 ≤ scale L)
  rw [Nat.cast_zero, zero_add, mul_one]
  exact ⟨ol, by linarith⟩

theorem DriftInv.step (F : Fits u lo hi L) (R : Rounded env.ar val ok u lo hi (2 * (L * L))) {A A' : Abs α} (I : AInv L A) (I' : AInv L A')
    (hc : A'.count ≤ L * L) (h : DriftInv val ok u L A) (hs : AStep env L A A') : DriftInv val ok u L A' := by
  cases hs with
  | @place k r V' P' hk hu E _ =>
    have hc' : A.count + 1 ≤ L * L := hc
    have hB := F.two_le
    have hsc := F.scale_pos
    have hscB := F.scale_le
    have hu0 := F.u0
    have hu1 := F.u_le
    have hov := F.over
    have hl0 := F.log_nonneg
    have hl1 := F.log_le
    have hLL : (A.count : ℝ) + 1 ≤ (2 * (L * L) : Nat) := by exact_mod_cast (by omega : A.count + 1 ≤ 2 * (L * L))
    obtain ⟨K, hK⟩ : ∃ K, K = u * scale L := ⟨_, rfl⟩
    have hK0 : 0 ≤ K := hK ▸ mul_nonneg hu0 (by linarith)
    have hlogK : u * Real.log (2 * (L * L) : Nat) ≤ K := by
      rw [hK]; exact mul_le_mul_of_nonneg_left (by unfold scale; linarith) hu0
    have hd1 := F.drift_le hLL
    have hd2 := F.drift_le (x := 2) hB
    rw [← hK] at hd1 hd2
    have hadj := adjSet_subset I.core hk
    -- the sum over the neighbouring clusters
    have e1 : (env.set.iter ((siteBonds L k).map A.V.bg)).toFinset = adjSet L A.V k := by
      ext g; rw [List.mem_toFinset, env.set.iter_mem, adjSet, List.mem_toFinset]
    obtain ⟨os, hsum⟩ := F.sum_err R I.core (env.set.iter ((siteBonds L k).map A.V.bg)) (env.set.iter_nodup _)
      (fun g hg => hadj (by rw [← e1]; exact List.mem_toFinset.2 hg))
      (fun g hg => I.core.len_pos hk (mem_adjSet.1 (by rw [← e1]; exact List.mem_toFinset.2 hg)))
    rw [← adjSum_foldl] at os
    rw [← adjSum_foldl, e1, ← hK] at hsum
    have hlen : ((env.set.iter ((siteBonds L k).map A.V.bg)).length : ℝ) ≤ 4 := by
      rw [← List.toFinset_card_of_nodup (env.set.iter_nodup _), e1]
      exact_mod_cast adjSet_card_le
    have hsum2 : |val (adjSum env L A.V A.P k) - ∑ g ∈ adjSet L A.V k, mulog L (A.P.len g)| ≤ 9 * K := by
      have := mul_le_mul_of_nonneg_right hlen hK0
      linarith
    -- the new cluster
    have hr : r ∈ gids L := hadj (mem_adjSet.2 E.adj)
    have hrp : 1 ≤ P'.len r := (I.core.len_pos hk E.adj).trans_le (E.len_le_root E.adj)
    have hrl : P'.len r ≤ 2 * (L * L) := I'.core.len_le hr
    obtain ⟨ot, hterm⟩ := F.term R hrp hrl
    rw [← hK] at hterm
    have hfr : (P'.len r : ℝ) / (2 * (L * L) : Nat) ≤ 1 := by
      rw [div_le_one (by linarith)]; exact_mod_cast hrl
    have hterm2 : |val (muLog env L (P'.len r)) - mulog L (P'.len r)| ≤ 4 * K := by
      have := mul_le_mul_of_nonneg_left hfr (by linarith : 0 ≤ 4 * K)
      linarith
    -- the exact values
    have hex := E.sum_len (mulog L) (mulog_zero L) I.core hk
    have hex1 : exactEnt L A.P + ∑ g ∈ adjSet L A.V k, mulog L (A.P.len g) = -∑ g ∈ gids L \ adjSet L A.V k, mulog L (A.P.len g) := by
      unfold exactEnt; rw [← Finset.sum_sdiff hadj]; ring
    have hex2 : exactEnt L P' = exactEnt L A.P + ∑ g ∈ adjSet L A.V k, mulog L (A.P.len g) - mulog L (P'.len r) := by
      unfold exactEnt; rw [hex]; ring
    have hb1 := I.core.exactEnt_bounds F.pos _ (Finset.sdiff_subset (s := gids L) (t := adjSet L A.V k))
    rw [← hex1] at hb1
    have hb2 : 0 ≤ exactEnt L P' ∧ exactEnt L P' ≤ Real.log (2 * (L * L) : Nat) := I'.core.exactEnt_bounds F.pos _ (Finset.Subset.refl _)
    unfold DriftInv at h ⊢
    rw [← hK] at h ⊢
    obtain ⟨ox, h⟩ := h
    show ok (env.ar.sub (env.ar.add A.ent (adjSum env L A.V A.P k)) (muLog env L (P'.len r))) ∧
      |val (env.ar.sub (env.ar.add A.ent (adjSum env L A.V A.P k)) (muLog env L (P'.len r))) - exactEnt L P'| ≤
        20 * K * (((A.count + 1 : Nat) : ℝ) + 1)
    generalize A.ent = x' at *
    generalize adjSum env L A.V A.P k = y' at *
    generalize muLog env L (P'.len r) = t' at *
    generalize hx' : val x' = x at *
    generalize hy' : val y' = y at *
    generalize ht' : val t' = t at *
    generalize exactEnt L P' = H' at *
    generalize exactEnt L A.P = H at *
    generalize ∑ g ∈ adjSet L A.V k, mulog L (A.P.len g) = Y at *
    generalize mulog L (P'.len r) = T at *
    push_cast at hd1 ⊢
    obtain ⟨c, hcc⟩ : ∃ c : ℝ, c = (A.count : ℝ) + 1 := ⟨_, rfl⟩
    rw [← hcc] at h hd1 ⊢
    have hKu : u * (K * c) ≤ K / 64 := by
      have h1 : u * c ≤ u * (2 * (L * L) : Nat) := mul_le_mul_of_nonneg_left (hcc ▸ hLL) hu0
      have h2 := F.small
      have h3 := mul_le_mul_of_nonneg_left (by linarith : u * c ≤ 1 / 64) hK0
      linarith
    have huK : u * K ≤ K / 128 := by
      have := mul_le_mul_of_nonneg_right hu1 hK0; linarith
    have huuK : u * (u * (K * c)) ≤ K / 64 / 128 := by
      have h1 := mul_le_mul_of_nonneg_left hKu hu0
      have h2 := huK
      linarith
    have huuK2 : u * (u * K) ≤ K / 128 / 128 := by
      have h1 := mul_le_mul_of_nonneg_left huK hu0
      linarith
    -- the addition
    have e2 : x + y - (H + Y) = (x - H) + (y - Y) := by ring
    have g1 : |x + y - (H + Y)| ≤ 20 * K * c + 9 * K := by
      rw [e2]; exact (abs_add_le _ _).trans (add_le_add h hsum2)
    have g2 : |x + y| ≤ Real.log (2 * (L * L) : Nat) + (20 * K * c + 9 * K) := by
      have h1 := abs_sub_abs_le_abs_sub (x + y) (H + Y)
      rw [abs_of_nonneg hb1.1] at h1
      linarith
    obtain ⟨oz, g3⟩ := R.add x' y' ox os (by rw [hx', hy']; linarith)
    rw [hx', hy'] at g3
    have g4 : |val (env.ar.add x' y') - (H + Y)| ≤ 20 * K * c + 9 * K + (K + 20 * (u * (K * c)) + 9 * (u * K)) := by
      have h1 := abs_sub_le (val (env.ar.add x' y')) (x + y) (H + Y)
      have h2 := mul_le_mul_of_nonneg_left g2 hu0
      linarith
    generalize env.ar.add x' y' = z' at *
    generalize hz' : val z' = z at *
    -- the subtraction
    have e3 : z - t - H' = (z - (H + Y)) - (t - T) := by rw [hex2]; ring
    have g5 : |z - t - H'| ≤ 20 * K * c + 9 * K + (K + 20 * (u * (K * c)) + 9 * (u * K)) + 4 * K := by
      rw [e3]
      exact (abs_sub _ _).trans (add_le_add g4 hterm2)
    have g6 : |z - t| ≤ Real.log (2 * (L * L) : Nat) + (20 * K * c + 9 * K + (K + 20 * (u * (K * c)) + 9 * (u * K)) + 4 * K) := by
      have h1 := abs_sub_abs_le_abs_sub (z - t) H'
      rw [abs_of_nonneg hb2.1] at h1
      linarith
    obtain ⟨ow, g7⟩ := R.sub z' t' oz ot (by rw [hz', ht']; linarith)
    rw [hz', ht'] at g7
    have h1 := abs_sub_le (val (env.ar.sub z' t')) (z - t) H'
    have h2 := mul_le_mul_of_nonneg_left g6 hu0
    exact ⟨ow, by linarith⟩
  | tick h' => exact h
  | detect _ _ _ _ => exact h
  | reselect _ _ => exact h

theorem AReach.count_le {A : Abs α} (h : AReach env L A) : A.count ≤ L * L := by
  classical
  rw [h.count]
  unfold occCount
  exact (Finset.card_filter_le _ _).trans (by simp)

theorem AReach.drift (F : Fits u lo hi L) (R : Rounded env.ar val ok u lo hi (2 * (L * L))) {A : Abs α} (h : AReach env L A) : DriftInv val ok u L A := by
  induction h with
  | init _ => exact DriftInv.init F R _
  | step h hs ih => exact ih.step F R h.inv (h.inv.step hs) (h.step hs).count_le hs

/-- `entropy_v1`, in any arithmetic: a sum over the positions of the pool with a non-empty cluster. -/
theorem entropyV1Loop_foldl {S : Perc α} {A : Abs α} (M : Sim env L S A) (is : List Nat) (h : ∀ i ∈ is, i < 2 * (L * L)) (x : α) :
    S.entropyV1Loop env is x = .ok (((is.map fun i : Nat => (i : Int)).filter fun g => A.P.len g ≠ 0).foldl
      (fun h g => env.ar.add h (muLog env L (A.P.len g))) x) := by
  induction is generalizing x with
  | nil => rfl
  | cons i is ih =>
    simp only [Perc.entropyV1Loop]
    rw [M.bondCount (natCast_mem_gids (h i (by simp)))]
    show (if A.P.len i = 0 then _ else _) = _
    have hB : S.lat.bondCount = 2 * (L * L) := by rw [M.lat, mkLat_bondCount]
    rw [List.map_cons]
    split
    · next h0 =>
      rw [ih (fun j hj => h j (by simp [hj])), List.filter_cons_of_neg (by simp [h0])]
    · next h0 =>
      rw [ih (fun j hj => h j (by simp [hj])), hB, List.filter_cons_of_pos (by simp [h0]), List.foldl_cons]
      rfl

/-- C65: in rounded arithmetic `entropy_v2()` is off from the Shannon entropy of the components by at most `20 u (log(2L²) + 1)` per site
placed since the last reset. -/
theorem C65_drift (F : Fits u lo hi L) (R : Rounded env.ar val ok u lo hi (2 * (L * L))) {S : Perc α} (h : Reach env v L S) :
    ok S.entropy ∧ |val S.entropy - shannon L S.Occ| ≤ 20 * u * (Real.log (2 * (L * L) : Nat) + 1) * (S.occupiedCount + 1) := by
  obtain ⟨hL, A, M, hA⟩ := h.sim
  have := hA.drift F R
  rw [Perc.entropy, M.ent, M.occ_eq, hA.inv.core.shannon, M.count]
  unfold DriftInv scale at this
  rw [mul_assoc 20 u]
  exact this

/-- C65: in rounded arithmetic `entropy_v1()` never raises and is off by at most `2 u (log(2L²) + 1) (2L² + 4)`, whatever the history. -/
theorem C65_v1 (F : Fits u lo hi L) (R : Rounded env.ar val ok u lo hi (2 * (L * L))) {S : Perc α} (h : Reach env v L S) :
    ∃ x, S.entropyV1 env = .ok x ∧ ok x ∧
      |val x - shannon L S.Occ| ≤ 2 * u * (Real.log (2 * (L * L) : Nat) + 1) * ((2 * (L * L) : Nat) + 4) := by
  obtain ⟨hL, A, M, hA⟩ := h.sim
  have C := hA.inv.core
  obtain ⟨l, hl⟩ : ∃ l, l = ((List.range (2 * (L * L))).map fun i : Nat => (i : Int)).filter fun g => A.P.len g ≠ 0 := ⟨_, rfl⟩
  obtain ⟨y', hy⟩ : ∃ y, y = l.foldl (fun h g => env.ar.add h (muLog env L (A.P.len g))) (env.ar.ofNat 0) := ⟨_, rfl⟩
  have hmem : ∀ g, g ∈ l ↔ g ∈ gids L ∧ A.P.len g ≠ 0 := by
    intro g
    rw [hl, List.mem_filter, List.mem_map, mem_gids]
    simp only [List.mem_range, decide_eq_true_eq]
    refine and_congr_left fun _ => ⟨?_, fun hg => ⟨g.toNat, by omega, by omega⟩⟩
    rintro ⟨i, hi, rfl⟩
    omega
  have hnd : l.Nodup := by
    rw [hl]
    exact (List.nodup_range.map (fun a b hab => by exact_mod_cast hab)).filter _
  obtain ⟨oy, hsum⟩ := F.sum_err R C l hnd (fun g hg => ((hmem g).1 hg).1) (fun g hg => Nat.pos_of_ne_zero ((hmem g).1 hg).2)
  rw [← hy] at hsum oy
  obtain ⟨on, wn⟩ := R.neg y' oy
  obtain ⟨y, ey⟩ : ∃ y, y = val y' := ⟨_, rfl⟩
  rw [← ey] at hsum
  have hfs : ∑ g ∈ l.toFinset, mulog L (A.P.len g) = ∑ g ∈ gids L, mulog L (A.P.len g) := by
    refine Finset.sum_subset (fun g hg => ((hmem g).1 (List.mem_toFinset.1 hg)).1) fun g hg hn => ?_
    have : A.P.len g = 0 := by
      by_contra hc
      exact hn (List.mem_toFinset.2 ((hmem g).2 ⟨hg, hc⟩))
    rw [this, mulog_zero]
  refine ⟨env.ar.neg y', ?_, on, ?_⟩
  · rw [Perc.entropyV1, M.cc, entropyV1Loop_foldl M _ (fun i hi => List.mem_range.1 hi), ← hl, ← hy]
    rfl
  · rw [wn, ← ey, M.occ_eq, C.shannon, ← hfs, ← abs_neg]
    have e : -(-y - -∑ g ∈ l.toFinset, mulog L (A.P.len g)) = y - ∑ g ∈ l.toFinset, mulog L (A.P.len g) := by ring
    rw [e]
    refine hsum.trans ?_
    have hlen : (l.length : ℝ) ≤ (2 * (L * L) : Nat) := by
      have : l.length ≤ 2 * (L * L) := by
        rw [← List.toFinset_card_of_nodup hnd, ← card_gids L]
        exact Finset.card_le_card fun g hg => ((hmem g).1 (List.mem_toFinset.1 hg)).1
      exact_mod_cast this
    have husc : 0 ≤ u * scale L := mul_nonneg F.u0 (by linarith [F.scale_pos])
    have h1 := mul_le_mul_of_nonneg_right (by linarith : (l.length : ℝ) + 4 ≤ (2 * (L * L) : Nat) + 4) husc
    have h2 : 0 ≤ (l.length + 4) * (u * scale L) := mul_nonneg (by positivity) husc
    unfold scale at *
    linarith

theorem Trace.drift (F : Fits u lo hi L) (R : Rounded env.ar val ok u lo hi (2 * (L * L))) {S : Perc α} {seq : List Nat} (T : Trace env v L S seq) :
    ok S.entropy ∧ |val S.entropy - shannon L (· ∈ seq)| ≤ 20 * u * (Real.log (2 * (L * L) : Nat) + 1) * (seq.length + 1) := by
  obtain ⟨hL, A, M, hA, I⟩ := T.sim
  have := hA.drift F R
  rw [Perc.entropy, M.ent, ← I.occ_eq, hA.inv.core.shannon, ← I.count]
  unfold DriftInv scale at this
  rw [mul_assoc 20 u]
  exact this

/-- The Shannon entropy of the full lattice is 0. -/
theorem Core.shannon_full {V : LV} {P : PV} (C : Core L V P) (hL : 0 < L) (hf : ∀ s < L * L, VOcc L V s) : SqPerc.shannon L (VOcc L V) = 0 := by
  have hB : 0 < 2 * (L * L) := by have := Nat.mul_pos hL hL; omega
  have hB' : ((2 * (L * L) : Nat) : ℝ) ≠ 0 := by exact_mod_cast hB.ne'
  rw [C.shannon, neg_eq_zero]
  have h0 := C.full_len hf hB
  have hr := mem_gids.2 (C.bgr 0 hB)
  rw [Finset.sum_eq_single_of_mem _ hr, h0]
  · unfold mulog; rw [div_self hB']; simp
  · intro g hg hne
    have := C.sum_len
    rw [← Finset.add_sum_erase _ _ hr, h0] at this
    have h1 : ∑ g ∈ (gids L).erase (V.bg 0), P.len g = 0 := by omega
    rw [Finset.sum_eq_zero_iff] at h1
    rw [h1 g (Finset.mem_erase.2 ⟨hne, hg⟩), mulog_zero]

/-- C65: every entry that a complete `run_once()` adds to the list of entropies is that close to the exact entropy of its configuration, and
the entropy of the full lattice, which is 0, is reported as a number of at most `20 u (log(2L²) + 1) (L² + 1)`. -/
theorem C65_run (F : Fits u lo hi L) (R : Rounded env.ar val ok u lo hi (2 * (L * L))) {S : Perc α} (h : Fresh env v L S) {fuel : Nat} {ds : Nat → Draw}
    (hf : initBudget L v < fuel) : ∃ S' seq es, S.runOnce env v fuel ds = .ok S' ∧ seq.Perm (List.range (L * L)) ∧
      S'.entropyList = S.entropyList ++ es ∧ es.length = L * L ∧
      List.Forall₂ (fun x q => ok x ∧ |val x - shannon L (· ∈ q)| ≤ 20 * u * (Real.log (2 * (L * L) : Nat) + 1) * (q.length + 1)) es (stages [] seq) ∧
      ok S'.entropy ∧ |val S'.entropy| ≤ 20 * u * (Real.log (2 * (L * L) : Nat) + 1) * ((L * L : Nat) + 1) := by
  obtain ⟨S', seq, e, T, hperm, hocc, _⟩ := h.run (ds := ds) hf
  obtain ⟨S1, seq', e1, T', c⟩ := h.trace.runOnce_data e
  obtain ⟨_, A, M, hA, I⟩ := T.sim
  obtain ⟨_, A2, M2, hA2, I2⟩ := T'.sim
  obtain ⟨es, h1, h2⟩ := c.entropyRel
    (fun x q => ok x ∧ |val x - shannon L (· ∈ q)| ≤ 20 * u * (Real.log (2 * (L * L) : Nat) + 1) * (q.length + 1)) (fun T q hT => hT.drift F R)
  rw [List.nil_append] at I2 T'
  have hlen : seq'.length = L * L := by
    have h3 : A2.count = A.count := M2.count.symm.trans M.count
    rw [← I2.count, h3, I.count, hperm.length_eq, List.length_range]
  have hperm' : seq'.Perm (List.range (L * L)) := by
    refine (List.perm_ext_iff_of_nodup I2.nd List.nodup_range).2 fun s => ?_
    rw [← I2.occ]
    constructor
    · intro hs; exact List.mem_range.2 hs.1
    · intro hs
      have := hocc s (List.mem_range.1 hs)
      rwa [M2.occ_eq] at this
  refine ⟨S', seq', es, e, hperm', ?_, ?_, h2, ?_⟩
  · rw [e1]; exact h1
  · rw [h2.length_eq, stages_length, hlen]
  · obtain ⟨o3, h3⟩ := T'.drift F R
    rw [← I2.occ_eq, hA2.inv.core.shannon_full F.pos (by rw [← M2.occ_eq]; exact hocc), sub_zero, hlen] at h3
    exact ⟨o3, h3⟩

/-- C65: the two functions agree up to rounding. -/
theorem C65_agree (F : Fits u lo hi L) (R : Rounded env.ar val ok u lo hi (2 * (L * L))) {S : Perc α} (h : Reach env v L S) :
    ∃ x, S.entropyV1 env = .ok x ∧
      |val x - val S.entropy| ≤ u * (Real.log (2 * (L * L) : Nat) + 1) * (20 * (S.occupiedCount + 1) + 2 * ((2 * (L * L) : Nat) + 4)) := by
  obtain ⟨x, hx, _, h1⟩ := C65_v1 F R h
  obtain ⟨_, h2⟩ := C65_drift F R h
  refine ⟨x, hx, ?_⟩
  have h3 := abs_sub_le (val x) (shannon L S.Occ) (val S.entropy)
  rw [abs_sub_comm (shannon L S.Occ)] at h3
  linarith

end

/-! ### A binary floating-point format -/

/-- `x` rounded to the nearest number with a mantissa of `p + 1` bits (unbounded exponent). -/
noncomputable def roundBin (p : Nat) (x : ℝ) : ℝ :=
  (round (x * 2 ^ ((p : ℤ) - Int.log 2 |x|)) : ℝ) * 2 ^ (Int.log 2 |x| - (p : ℤ))

theorem roundBin_zero (p : Nat) : roundBin p 0 = 0 := by simp [roundBin]

theorem roundBin_err (p : Nat) (x : ℝ) : |roundBin p x - x| ≤ 2⁻¹ ^ (p + 1) * |x| := by
  rcases eq_or_ne x 0 with rfl | hx
  · simp [roundBin_zero]
  · have hx0 : 0 < |x| := abs_pos.2 hx
    have hlog := Int.zpow_log_le_self (b := 2) (by norm_num) hx0
    unfold roundBin
    generalize Int.log 2 |x| = e at *
    have h2 : (0 : ℝ) < 2 ^ (e - (p : ℤ)) := by positivity
    have hx2 : x = x * 2 ^ ((p : ℤ) - e) * 2 ^ (e - (p : ℤ)) := by
      rw [mul_assoc, ← zpow_add₀ (by norm_num)]; simp
    have e1 : (round (x * 2 ^ ((p : ℤ) - e)) : ℝ) * 2 ^ (e - (p : ℤ)) - x =
        -(x * 2 ^ ((p : ℤ) - e) - round (x * 2 ^ ((p : ℤ) - e))) * 2 ^ (e - (p : ℤ)) := by
      linear_combination -hx2
    rw [e1, abs_mul, abs_neg, abs_of_pos h2]
    have h3 := mul_le_mul_of_nonneg_right (abs_sub_round (x * 2 ^ ((p : ℤ) - e))) h2.le
    refine h3.trans ?_
    rw [zpow_sub₀ (by norm_num), zpow_natCast]
    have h4 : (0 : ℝ) < 2 ^ p := by positivity
    have e2 : (2⁻¹ : ℝ) ^ (p + 1) * |x| = 1 / 2 * (|x| / 2 ^ p) := by
      rw [pow_succ, inv_pow]; field_simp
    rw [e2]
    have : (2 : ℝ) ^ e ≤ |x| := by exact_mod_cast hlog
    gcongr

theorem roundBin_nat (p n : Nat) (h : n ≤ 2 ^ p) : roundBin p n = n := by
  rcases Nat.eq_zero_or_pos n with rfl | hn
  · simp [roundBin_zero]
  · unfold roundBin
    rw [Nat.abs_cast, Int.log_natCast]
    have hle : Nat.log 2 n ≤ p := by
      have := Nat.log_mono_right (b := 2) h
      rwa [Nat.log_pow (by norm_num)] at this
    obtain ⟨d, hd⟩ := Nat.exists_eq_add_of_le hle
    have e1 : ((p : ℤ) - (Nat.log 2 n : ℤ)) = (d : ℤ) := by omega
    have e2 : ((Nat.log 2 n : ℤ) - (p : ℤ)) = -(d : ℤ) := by omega
    rw [e1, e2, zpow_natCast]
    have : (n : ℝ) * 2 ^ d = ((n * 2 ^ d : ℤ) : ℝ) := by push_cast; ring
    rw [this, round_intCast]
    push_cast
    rw [zpow_neg, zpow_natCast]
    field_simp

/-- Binary arithmetic with a mantissa of `p + 1` bits: every operation returns the exact result, rounded. -/
noncomputable def binArith (p : Nat) : Arith ℝ :=
  ⟨fun n => roundBin p n, fun a b => roundBin p (a + b), fun a b => roundBin p (a - b), fun a b => roundBin p (a * b),
    fun a b => roundBin p (a / b), fun a => -a, fun a => roundBin p (Real.log a)⟩

/-- Such arithmetic meets the laws, with `u = 2^-(p+1)`. -/
theorem binArith_rounded (p : Nat) (lo hi : ℝ) {N : Nat} (hN : N ≤ 2 ^ p) : Rounded (binArith p) id (fun _ => True) (2⁻¹ ^ (p + 1)) lo hi N where
  ofNat n hn := ⟨trivial, roundBin_nat p n (hn.trans hN)⟩
  add x y _ _ _ := ⟨trivial, roundBin_err p (x + y)⟩
  sub x y _ _ _ := ⟨trivial, roundBin_err p (x - y)⟩
  mul x y _ _ _ _ := ⟨trivial, roundBin_err p (x * y)⟩
  div x y _ _ _ _ _ := ⟨trivial, roundBin_err p (x / y)⟩
  div_self x _ hx := by
    refine ⟨trivial, ?_⟩
    show roundBin p (x / x) = 1
    rw [div_self (a := x) hx]
    exact_mod_cast roundBin_nat p 1 Nat.one_le_two_pow
  neg x _ := ⟨trivial, rfl⟩
  log x _ _ _ _ := ⟨trivial, roundBin_err p (Real.log x)⟩

theorem fits_double (hL : 0 < L) (h : L ≤ 2 ^ 23) : Fits (2⁻¹ ^ (52 + 1)) 0 (4 * ((2 * (L * L) : Nat) : ℝ)) L where
  pos := hL
  u0 := by positivity
  small := by
    have h1 : 2 * (L * L) ≤ 2 ^ 47 := by
      have := Nat.mul_le_mul h h
      omega
    have h2 : ((2 * (L * L) : Nat) : ℝ) ≤ 2 ^ 47 := by exact_mod_cast h1
    have h3 : (64 : ℝ) * (2⁻¹ ^ (52 + 1) * (2 * (L * L) : Nat)) ≤ 64 * (2⁻¹ ^ (52 + 1) * 2 ^ 47) := by gcongr
    norm_num at h3 ⊢
    linarith
  under := by rw [zero_mul]; norm_num
  over := le_rfl

/-- C65: with the precision of a Python `float` (53 bits, correctly rounded operations) and any side up to `2²³`. -/
theorem C65_double {so : SetOrder} {S : Perc ℝ} (hL : L ≤ 2 ^ 23) (h : Reach ⟨so, binArith 52⟩ v L S) :
    |S.entropy - shannon L S.Occ| ≤ 20 * 2⁻¹ ^ 53 * (Real.log (2 * (L * L) : Nat) + 1) * (S.occupiedCount + 1) ∧
      ∃ x, S.entropyV1 ⟨so, binArith 52⟩ = .ok x ∧
        |x - shannon L S.Occ| ≤ 2 * 2⁻¹ ^ 53 * (Real.log (2 * (L * L) : Nat) + 1) * ((2 * (L * L) : Nat) + 4) := by
  have h0 : 0 < L := h.sim.1
  have hN : 2 * (L * L) ≤ 2 ^ 52 := by
    have := Nat.mul_le_mul hL hL
    omega
  have R := binArith_rounded 52 0 (4 * ((2 * (L * L) : Nat) : ℝ)) hN
  obtain ⟨x, h1, _, h2⟩ := C65_v1 (env := ⟨so, binArith 52⟩) (fits_double h0 hL) R h
  exact ⟨(C65_drift (env := ⟨so, binArith 52⟩) (fits_double h0 hL) R h).2, x, h1, h2⟩

/-- C65, on a complete run with L = 3 in double precision. -/
example : ∃ S S', Fresh ⟨demoSet, binArith 52⟩ .l0 3 S ∧ S.runOnce ⟨demoSet, binArith 52⟩ .l0 1000 (fun _ => ⟨0, 0⟩) = .ok S' ∧
    |S'.entropy| ≤ 20 * 2⁻¹ ^ (52 + 1) * (Real.log 18 + 1) * 10 := by
  obtain ⟨S, _, h⟩ := fresh_exists ⟨demoSet, binArith 52⟩ .l0 (L := 3) (by decide) (fun _ => 0)
  obtain ⟨S', _, _, e, _, _, _, _, _, h'⟩ := C65_run (env := ⟨demoSet, binArith 52⟩) (fits_double (L := 3) (by decide) (by norm_num))
    (binArith_rounded 52 0 _ (by norm_num)) h (fuel := 1000) (ds := fun _ => ⟨0, 0⟩) (by decide)
  refine ⟨S, S', h, e, ?_⟩
  norm_num at h' ⊢
  exact h'

end SqPerc
