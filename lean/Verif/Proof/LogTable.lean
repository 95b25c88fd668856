import Mathlib.Analysis.SpecialFunctions.Log.Deriv
import Mathlib.Analysis.SpecificLimits.Basic
import Verif.Proof.EvalComps
import Verif.Proof.Small
/-
Evaluation: logarithms of natural numbers in units of `10⁻²⁰`, and with them the entropy of a list of components.
-/
namespace SqPerc

variable {L : Nat} {occ : Nat → Prop}

/-- The sum of `2·10²⁰ / (d yᵈ)` for `f` odd numbers `d`; every quotient is rounded down; `p` is `yᵈ`. -/
def logTerms (y : Nat) : Nat → Nat → Nat → Nat
  | 0, _, _ => 0
  | f + 1, d, p => MT.force (d + 2) fun d' => MT.force (p * (y * y)) fun p' => Nat.add (Nat.div (2 * 10 ^ 20) (Nat.mul d p)) (logTerms y f d' p')

theorem div_bounds (m : Nat) {z : Nat} (hz : 0 < z) : ((m / z : Nat) : ℝ) ≤ (m : ℝ) / z ∧ (m : ℝ) / z ≤ ((m / z : Nat) : ℝ) + 1 := by
  have hz' : (0 : ℝ) < z := by exact_mod_cast hz
  refine ⟨Nat.cast_div_le, ?_⟩
  rw [div_le_iff₀ hz']
  have h : m ≤ (m / z + 1) * z := by
    have h1 := Nat.div_add_mod m z
    have h2 := Nat.mod_lt m hz
    rw [Nat.add_mul, Nat.mul_comm (m / z)]
    omega
  exact_mod_cast h

theorem logTerms_bounds {y : Nat} (hy : 0 < y) : ∀ (f k : Nat),
    ((logTerms y f (2 * k + 1) (y ^ (2 * k + 1)) : Nat) : ℝ) ≤ ∑ j ∈ Finset.range f, 10 ^ 20 * ((2 : ℝ) * (1 / (2 * ((k + j : Nat) : ℝ) + 1)) * (1 / (y : ℝ)) ^ (2 * (k + j) + 1)) ∧
    ∑ j ∈ Finset.range f, 10 ^ 20 * ((2 : ℝ) * (1 / (2 * ((k + j : Nat) : ℝ) + 1)) * (1 / (y : ℝ)) ^ (2 * (k + j) + 1)) ≤
      ((logTerms y f (2 * k + 1) (y ^ (2 * k + 1)) : Nat) : ℝ) + (f : ℝ)
  | 0, k => by simp [logTerms]
  | f + 1, k => by
    have ih := logTerms_bounds hy f (k + 1)
    have e : logTerms y (f + 1) (2 * k + 1) (y ^ (2 * k + 1)) = 2 * 10 ^ 20 / ((2 * k + 1) * y ^ (2 * k + 1)) + logTerms y f (2 * (k + 1) + 1) (y ^ (2 * (k + 1) + 1)) := by
      rw [logTerms, MT.force_eq, MT.force_eq, show y ^ (2 * k + 1) * (y * y) = y ^ (2 * (k + 1) + 1) by ring]
      rfl
    have hz : 0 < (2 * k + 1) * y ^ (2 * k + 1) := Nat.mul_pos (by omega) (Nat.pow_pos hy)
    obtain ⟨d1, d2⟩ := div_bounds (2 * 10 ^ 20) hz
    have et : ((2 * 10 ^ 20 : Nat) : ℝ) / (((2 * k + 1) * y ^ (2 * k + 1) : Nat) : ℝ) =
        10 ^ 20 * ((2 : ℝ) * (1 / (2 * ((k + 0 : Nat) : ℝ) + 1)) * (1 / (y : ℝ)) ^ (2 * (k + 0) + 1)) := by
      have hy' : (y : ℝ) ≠ 0 := by exact_mod_cast hy.ne'
      have hk : (2 * (k : ℝ) + 1) ≠ 0 := by positivity
      push_cast
      rw [add_zero, one_div_pow]
      field_simp
      simp
      ring
    rw [et] at d1 d2
    have es : ∑ j ∈ Finset.range f, 10 ^ 20 * ((2 : ℝ) * (1 / (2 * ((k + (j + 1) : Nat) : ℝ) + 1)) * (1 / (y : ℝ)) ^ (2 * (k + (j + 1)) + 1)) =
        ∑ j ∈ Finset.range f, 10 ^ 20 * ((2 : ℝ) * (1 / (2 * ((k + 1 + j : Nat) : ℝ) + 1)) * (1 / (y : ℝ)) ^ (2 * (k + 1 + j) + 1)) :=
      Finset.sum_congr rfl fun j _ => by rw [show k + (j + 1) = k + 1 + j by omega]
    rw [e, Finset.sum_range_succ', es, Nat.cast_add]
    refine ⟨?_, (add_le_add ih.2 d2).trans (le_of_eq ?_)⟩
    · rw [add_comm]
      exact add_le_add ih.1 d1
    · rw [Nat.cast_add f 1, Nat.cast_one]
      ring

/-- `log (1 + 1 / a)`. -/
def logStep (a : Nat) : Nat := logTerms (2 * a + 1) 22 1 (2 * a + 1)

theorem logStep_bounds {a : Nat} (ha : 0 < a) : (logStep a : ℝ) ≤ 10 ^ 20 * (Real.log (a + 1 : Nat) - Real.log a) ∧
    10 ^ 20 * (Real.log (a + 1 : Nat) - Real.log a) ≤ logStep a + 23 := by
  have ha' : (0 : ℝ) < a := by exact_mod_cast ha
  have ha1 : (1 : ℝ) ≤ a := by exact_mod_cast ha
  have hl : Real.log (1 + (a : ℝ)⁻¹) = Real.log (a + 1 : Nat) - Real.log a := by
    rw [← Real.log_div (by positivity) ha'.ne']
    congr 1
    push_cast
    field_simp
  have H := Real.hasSum_log_one_add_inv ha'
  rw [hl] at H
  set x := Real.log (a + 1 : Nat) - Real.log a
  obtain ⟨b1, b2⟩ := logTerms_bounds (y := 2 * a + 1) (by omega) 22 0
  rw [Nat.mul_zero, Nat.zero_add, pow_one] at b1 b2
  simp only [Nat.zero_add] at b1 b2
  rw [← Finset.mul_sum] at b1 b2
  have ey : ((2 * a + 1 : Nat) : ℝ) = 2 * a + 1 := by push_cast; ring
  rw [ey] at b1 b2
  set P := ∑ k ∈ Finset.range 22, (2 : ℝ) * (1 / (2 * (k : ℝ) + 1)) * (1 / (2 * (a : ℝ) + 1)) ^ (2 * k + 1)
  have h1 : P ≤ x := sum_le_hasSum _ (fun k _ => by positivity) H
  have h2 : x - P ≤ 3 / 4 * (1 / 9) ^ 22 := by
    have Ht := (hasSum_nat_add_iff' 22).2 H
    have hg : HasSum (fun k : ℕ => 2 / 3 * (1 / 9 : ℝ) ^ 22 * (1 / 9) ^ k) (2 / 3 * (1 / 9 : ℝ) ^ 22 * (1 - 1 / 9)⁻¹) :=
      (hasSum_geometric_of_lt_one (by norm_num) (by norm_num)).mul_left _
    have hle := hasSum_le (fun k => ?_) Ht hg
    · refine hle.trans (le_of_eq ?_)
      norm_num
    · have q1 : (1 / (2 * (a : ℝ) + 1)) ≤ 1 / 3 := one_div_le_one_div_of_le (by norm_num) (by linarith)
      have q2 : (1 / (2 * (a : ℝ) + 1)) ^ (2 * (k + 22) + 1) ≤ (1 / 3) ^ (2 * (k + 22) + 1) := pow_le_pow_left₀ (by positivity) q1 _
      have q3 : (1 / (2 * ((k + 22 : Nat) : ℝ) + 1)) ≤ 1 := by
        rw [div_le_one (by positivity)]
        have : (0 : ℝ) ≤ ((k + 22 : Nat) : ℝ) := Nat.cast_nonneg _
        linarith
      have q4 : (1 / 3 : ℝ) ^ (2 * (k + 22) + 1) = 1 / 3 * (1 / 9) ^ 22 * (1 / 9) ^ k := by
        rw [pow_succ, pow_mul, show (1 / 3 : ℝ) ^ 2 = 1 / 9 by norm_num, pow_add]
        ring
      calc (2 : ℝ) * (1 / (2 * ((k + 22 : Nat) : ℝ) + 1)) * (1 / (2 * (a : ℝ) + 1)) ^ (2 * (k + 22) + 1)
          ≤ 2 * 1 * (1 / 3) ^ (2 * (k + 22) + 1) := by
            refine mul_le_mul ?_ q2 (by positivity) (by norm_num)
            linarith
        _ = _ := by rw [q4]; ring
  have h3 : (10 : ℝ) ^ 20 * (3 / 4 * (1 / 9) ^ 22) ≤ 1 := by norm_num
  have p : (0 : ℝ) < 10 ^ 20 := by positivity
  have h4 := mul_le_mul_of_nonneg_left h1 p.le
  have h5 := mul_le_mul_of_nonneg_left h2 p.le
  rw [mul_sub] at h5
  unfold logStep
  push_cast at b2
  constructor <;> linarith

/-- `log a`, `log (a + 1)`, …; `acc` is the first. -/
def logsFrom : Nat → Nat → Nat → List Nat
  | 0, _, _ => []
  | f + 1, a, acc => acc :: MT.force (a + 1) fun a' => MT.force (acc + logStep a) fun acc' => logsFrom f a' acc'

theorem logsFrom_bounds : ∀ (f : Nat) {a acc : Nat}, 0 < a → ((acc : ℝ) ≤ 10 ^ 20 * Real.log a ∧ 10 ^ 20 * Real.log a ≤ acc + 23 * a) →
    (logsFrom f a acc).length = f ∧ ∀ i x : Nat, (logsFrom f a acc)[i]? = some x →
      (x : ℝ) ≤ 10 ^ 20 * Real.log (a + i : Nat) ∧ 10 ^ 20 * Real.log (a + i : Nat) ≤ (x : ℝ) + 23 * ((a + i : Nat) : ℝ)
  | 0, a, acc, _, _ => ⟨rfl, fun i x h => by simp [logsFrom] at h⟩
  | f + 1, a, acc, ha, h => by
    obtain ⟨s1, s2⟩ := logStep_bounds ha
    have ih := logsFrom_bounds f (a := a + 1) (acc := acc + logStep a) (by omega) (by
      rw [mul_sub] at s1 s2
      push_cast at *
      constructor <;> linarith [h.1, h.2])
    rw [logsFrom, MT.force_eq, MT.force_eq]
    refine ⟨by rw [List.length_cons, ih.1], fun i x hx => ?_⟩
    cases i with
    | zero =>
      obtain rfl : acc = x := by simpa using hx
      simpa using h
    | succ i =>
      have := ih.2 i x (by simpa using hx)
      rwa [show a + 1 + i = a + (i + 1) by omega] at this

/-- The logarithms of 1, …, n in units of `10⁻²⁰`. -/
def logs (n : Nat) : List Nat := logsFrom n 1 0

theorem logs_bounds {n m : Nat} (h0 : 0 < m) (hm : m ≤ n) : (((logs n).getD (m - 1) 0 : Nat) : ℝ) ≤ 10 ^ 20 * Real.log m ∧
    10 ^ 20 * Real.log m ≤ (((logs n).getD (m - 1) 0 : Nat) : ℝ) + 23 * (n : ℝ) := by
  obtain ⟨h1, h2⟩ := logsFrom_bounds n (a := 1) (acc := 0) (by norm_num) (by simp)
  have hlt : m - 1 < (logs n).length := by rw [logs, h1]; omega
  have := h2 (m - 1) _ (List.getElem?_eq_getElem hlt)
  rw [show 1 + (m - 1) = m by omega] at this
  rw [List.getD_eq_getElem?_getD, List.getElem?_eq_getElem hlt, Option.getD_some]
  refine ⟨this.1, this.2.trans ?_⟩
  have : (m : ℝ) ≤ n := by exact_mod_cast hm
  linarith!

/-! ### Entropies -/

/-- The sum of `m log m` over the components. -/
def weigh (tab : List Nat) : List (Nat × Nat) → Nat
  | [] => 0
  | p :: cs => bif Nat.beq p.2 1 then weigh tab cs else Nat.add (Nat.mul p.2 (tab.getD (p.2 - 1) 0)) (weigh tab cs)

theorem weigh_bounds {n : Nat} : ∀ {cs : List (Nat × Nat)}, (∀ p ∈ cs, 0 < p.2 ∧ p.2 ≤ n) →
    (weigh (logs n) cs : ℝ) ≤ 10 ^ 20 * (cs.map fun p => (p.2 : ℝ) * Real.log p.2).sum ∧
    10 ^ 20 * (cs.map fun p => (p.2 : ℝ) * Real.log p.2).sum ≤ weigh (logs n) cs + 23 * n * (cs.map fun p => (p.2 : ℝ)).sum
  | [], _ => by simp [weigh]
  | p :: cs, h => by
    obtain ⟨i1, i2⟩ := weigh_bounds fun p' hp => h p' (List.mem_cons_of_mem _ hp)
    obtain ⟨h0, hn⟩ := h p List.mem_cons_self
    rw [weigh, List.map_cons, List.sum_cons, List.map_cons, List.sum_cons]
    cases hb : Nat.beq p.2 1 with
    | true =>
      rw [cond_true, Nat.eq_of_beq_eq_true hb, Nat.cast_one, Real.log_one]
      have : (0 : ℝ) ≤ 23 * n := by positivity
      constructor <;> linarith
    | false =>
      rw [cond_false]
      obtain ⟨b1, b2⟩ := logs_bounds h0 hn
      have hp : (0 : ℝ) ≤ p.2 := Nat.cast_nonneg _
      have c1 := mul_le_mul_of_nonneg_left b1 hp
      have c2 := mul_le_mul_of_nonneg_left b2 hp
      have e : ((Nat.add (Nat.mul p.2 ((logs n).getD (p.2 - 1) 0)) (weigh (logs n) cs) : Nat) : ℝ) =
          (p.2 : ℝ) * (((logs n).getD (p.2 - 1) 0 : Nat) : ℝ) + ((weigh (logs n) cs : Nat) : ℝ) := by
        show ((p.2 * (logs n).getD (p.2 - 1) 0 + weigh (logs n) cs : Nat) : ℝ) = _
        push_cast
        ring
      rw [e]
      constructor <;> linarith

/-- Whether the entropy of the components is `z` in units of `10⁻³²`, up to `10⁻¹³`; `n` is the number of bonds and `a` its logarithm. -/
def entropyNear (n a w : Nat) (z : Int) : Bool := Nat.ble (Int.natAbs (((n * a : Nat) - (w : Int)) * 10 ^ 12 - z * n)) (n * 10 ^ 19)

theorem Listed.entropy {cs : List (Nat × Nat)} (I : Listed L occ cs) (hL : 0 < L) {z : Int} {t : Nat} (ht : 2 * (L * L) ≤ t)
    (h : entropyNear (2 * (L * L)) ((logs t).getD (2 * (L * L) - 1) 0) (weigh (logs t) cs) z = true) :
    |shannon L occ - (z : ℝ) / 10 ^ 32| ≤ (1 / 10 ^ 13 + 23 * (t : ℝ) / 10 ^ 20 : ℝ) := by
  classical
  obtain ⟨n, hn⟩ : ∃ n, n = 2 * (L * L) := ⟨_, rfl⟩
  have hn0 : 0 < n := by
    have := Nat.mul_pos hL hL
    omega
  have hnr : (0 : ℝ) < n := by exact_mod_cast hn0
  have hsum : (cs.map fun p => (p.2 : ℝ)).sum = n := by
    rw [← I.sum fun m => (m : ℝ), hn]
    exact_mod_cast sum_bondComps L occ
  have hp : ∀ p ∈ cs, 0 < p.2 ∧ p.2 ≤ n := by
    intro p hp
    rw [I.size p hp]
    refine ⟨Finset.card_pos.2 (I.ne p hp), ?_⟩
    rw [hn]
    unfold bits
    exact (Finset.card_filter_le _ _).trans_eq (Finset.card_range _)
  have hsh : n * shannon L occ = n * Real.log n - (cs.map fun p => (p.2 : ℝ) * Real.log p.2).sum := by
    rw [shannon, I.sum fun m => ((m : ℝ) / (2 * (L * L) : Nat)) * Real.log ((m : ℝ) / (2 * (L * L) : Nat)), ← hn]
    have key : ∀ l : List (Nat × Nat), (∀ p ∈ l, 0 < p.2) → n * (l.map fun p => ((p.2 : ℝ) / n) * Real.log ((p.2 : ℝ) / n)).sum =
        (l.map fun p => (p.2 : ℝ) * Real.log p.2).sum - (l.map fun p => (p.2 : ℝ)).sum * Real.log n := by
      intro l
      induction l with
      | nil => simp
      | cons p l ih =>
        intro h
        have h0 : (p.2 : ℝ) ≠ 0 := by exact_mod_cast (h p List.mem_cons_self).ne'
        simp only [List.map_cons, List.sum_cons]
        rw [mul_add, ih fun p' hp' => h p' (List.mem_cons_of_mem _ hp'), Real.log_div h0 hnr.ne', ← mul_assoc, mul_div_cancel₀ _ hnr.ne']
        ring
    rw [mul_neg, key cs fun p h => (hp p h).1, hsum]
    ring
  rw [← hn] at h ht
  obtain ⟨w1, w2⟩ := weigh_bounds fun p h => ⟨(hp p h).1, (hp p h).2.trans ht⟩
  obtain ⟨a1, a2⟩ := logs_bounds hn0 ht
  rw [hsum] at w2
  rw [entropyNear] at h
  have h' := Nat.le_of_ble_eq_true h
  generalize (logs t).getD (n - 1) 0 = a at *
  generalize weigh (logs t) cs = w at *
  generalize (cs.map fun p => (p.2 : ℝ) * Real.log p.2).sum = s at *
  have hz : |(((n * a : Nat) - (w : Int)) * 10 ^ 12 - z * n : ℤ)| ≤ (n * 10 ^ 19 : Nat) := by
    rw [Int.abs_eq_natAbs]
    exact_mod_cast h'
  have hz' : |((n : ℝ) * (a : ℝ) - (w : ℝ)) * 10 ^ 12 - (z : ℝ) * (n : ℝ)| ≤ (n : ℝ) * 10 ^ 19 := by exact_mod_cast hz
  have b1 := mul_le_mul_of_nonneg_left a1 hnr.le
  have b2 := mul_le_mul_of_nonneg_left a2 hnr.le
  have e1 : |(n : ℝ) * (a : ℝ) - (w : ℝ) - 10 ^ 20 * ((n : ℝ) * shannon L occ)| ≤ 23 * (t : ℝ) * (n : ℝ) := by
    rw [hsh, abs_le]
    constructor <;> linarith
  rw [abs_le] at e1 hz' ⊢
  have m1 : (n : ℝ) * 10 ^ 32 * (1 / 10 ^ 13 + 23 * t / 10 ^ 20) = n * 10 ^ 19 + 23 * t * n * 10 ^ 12 := by
    ring
  have m2 : (n : ℝ) * 10 ^ 32 * (shannon L occ - (z : ℝ) / 10 ^ 32) = n * 10 ^ 32 * shannon L occ - z * n := by
    field_simp
  have hpos : (0 : ℝ) < n * 10 ^ 32 := by positivity
  constructor
  · rw [← mul_le_mul_iff_right₀ hpos, mul_neg, m1, m2]
    linarith [e1.1, e1.2, hz'.1, hz'.2]
  · rw [← mul_le_mul_iff_right₀ hpos, m1, m2]
    linarith [e1.1, e1.2, hz'.1, hz'.2]

/-- The same for the components after each site. -/
def entropiesNear (n a : Nat) (tab : List Nat) : List (List (Nat × Nat)) → List Int → Bool
  | [], [] => true
  | c :: cs, z :: zs => entropyNear n a (weigh tab c) z && entropiesNear n a tab cs zs
  | _, _ => false

theorem entropiesNear_get {n a : Nat} {tab : List Nat} : ∀ {cs : List (List (Nat × Nat))} {zs : List Int}, entropiesNear n a tab cs zs = true →
    cs.length = zs.length ∧ ∀ (i : Nat) (c : List (Nat × Nat)) (z : Int), cs[i]? = some c → zs[i]? = some z → entropyNear n a (weigh tab c) z = true
  | [], [], _ => ⟨rfl, fun i c z h => by simp at h⟩
  | c :: cs, z :: zs, h => by
    rw [entropiesNear, Bool.and_eq_true] at h
    obtain ⟨h1, h2⟩ := entropiesNear_get h.2
    refine ⟨by rw [List.length_cons, h1, List.length_cons], fun i c' z' hc hz => ?_⟩
    cases i with
    | zero =>
      obtain rfl : c = c' := by simpa using hc
      obtain rfl : z = z' := by simpa using hz
      exact h.1
    | succ i => exact h2 i c' z' (by simpa using hc) (by simpa using hz)
  | [], _ :: _, h => by cases h
  | _ :: _, [], h => by cases h

end SqPerc
