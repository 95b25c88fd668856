import Verif.Model.Words
import Verif.Proof.Mean
import Verif.Proof.Variance
import Mathlib.Probability.ProductMeasure
import Mathlib.Probability.Distributions.Uniform
import Mathlib.Analysis.SpecificLimits.Basic
/-
Computations that take their numbers from uniform independent words by rejection: their results have the law of uniform independent answers.
-/
namespace SqPerc

open MeasureTheory

variable {β γ : Type}

/-! ### One word -/

/-- What one word gives for the request `n`: a number, or nothing if it is rejected. -/
def tryBelow (n : Nat) (w : Word) : Option Nat := if getBits n.size w < n then some (getBits n.size w) else none

theorem size_le {n : Nat} (h : n < 2 ^ 32) : n.size ≤ 32 := Nat.size_le.2 h

/-- The average over all words of a function of the upper bits. -/
theorem meanOf_bits {k : Nat} (hk : k ≤ 32) (g : Nat → ℝ) : meanOf (fun w : Word => g (getBits k w)) = (∑ r ∈ Finset.range (2 ^ k), g r) / 2 ^ k := by
  have hc : 2 ^ k * 2 ^ (32 - k) = 2 ^ 32 := by rw [← pow_add]; congr 1; omega
  have e : ∑ w : Word, g (getBits k w) = ∑ p : Fin (2 ^ k) × Fin (2 ^ (32 - k)), g p.1.1 := by
    refine (Fintype.sum_equiv (finProdFinEquiv.trans (finCongr hc)) _ _ fun p => ?_).symm
    congr 1
    show p.1.1 = (p.2.1 + 2 ^ (32 - k) * p.1.1) / 2 ^ (32 - k)
    rw [Nat.add_mul_div_left _ _ (by positivity), Nat.div_eq_of_lt p.2.2, zero_add]
  unfold meanOf
  rw [e, Fintype.sum_prod_type, Fintype.card_fin]
  simp only [Finset.sum_const, Finset.card_univ, Fintype.card_fin, nsmul_eq_mul]
  rw [← Finset.mul_sum, Finset.sum_range, ← hc]
  push_cast
  rw [mul_comm, mul_div_mul_right _ _ (by positivity)]

/-- The average over all words of what they give: each number below `n` the same, the rest rejected. -/
theorem meanOf_tryBelow {n : Nat} (hn : n < 2 ^ 32) (F : Option Nat → ℝ) :
    meanOf (fun w => F (tryBelow n w)) = (∑ r ∈ Finset.range n, F (some r) + (2 ^ n.size - n) * F none) / 2 ^ n.size := by
  have h := meanOf_bits (size_le hn) fun r => F (if r < n then some r else none)
  rw [show meanOf (fun w => F (tryBelow n w)) = _ from h]
  congr 1
  have hlt : n < 2 ^ n.size := Nat.lt_size_self n
  rw [← Finset.sum_range_add_sum_Ico _ hlt.le]
  congr 1
  · exact Finset.sum_congr rfl fun r hr => by rw [if_pos (Finset.mem_range.1 hr)]
  · rw [Finset.sum_congr rfl fun r hr => by rw [if_neg (not_lt.2 (Finset.mem_Ico.1 hr).1)], Finset.sum_const, Nat.card_Ico, nsmul_eq_mul,
      Nat.cast_sub hlt.le]
    push_cast
    rfl

/-! ### A given number of words -/

namespace Ask

/-- The result if the given words are enough. -/
def exec : List Word → Ask β → Option β
  | _, ret b => some b
  | [], ask _ _ => none
  | w :: ws, ask n k => match tryBelow n w with
    | some r => exec ws (k r)
    | none => exec ws (ask n k)

/-- `f` of the result, 0 if the words are not enough. -/
noncomputable def score (f : β → ℝ) : Option β → ℝ
  | some b => f b
  | none => 0

/-- The average of `f` of the result over all sequences of `m` words. -/
noncomputable def part (m : Nat) (f : β → ℝ) (p : Ask β) : ℝ := meanOf fun x : Fin m → Word => score f (exec (List.ofFn x) p)

theorem part_ret (m : Nat) (f : β → ℝ) (b : β) : part m f (ret b) = f b := by
  unfold part
  rw [← meanOf_const (ι := Fin m → Word) (f b)]
  exact meanOf_congr fun x => by cases List.ofFn x <;> rfl

theorem part_zero (f : β → ℝ) (n : Nat) (k : Nat → Ask β) : part 0 f (ask n k) = 0 := by
  unfold part
  rw [← meanOf_const (ι := Fin 0 → Word) 0]
  exact meanOf_congr fun x => by rw [List.ofFn_zero]; rfl

theorem part_succ (m : Nat) (f : β → ℝ) {n : Nat} (hn : n < 2 ^ 32) (k : Nat → Ask β) : part (m + 1) f (ask n k) =
    (∑ r ∈ Finset.range n, part m f (k r) + (2 ^ n.size - n) * part m f (ask n k)) / 2 ^ n.size := by
  have h := meanOf_tryBelow hn fun o => match o with
    | some r => part m f (k r)
    | none => part m f (ask n k)
  rw [← h]
  unfold part
  rw [meanOf_cons]
  refine meanOf_congr fun w => ?_
  cases ht : tryBelow n w with
  | some r =>
    refine meanOf_congr fun x => ?_
    rw [List.ofFn_succ, Fin.cons_zero]
    simp only [exec, ht, Fin.cons_succ]
  | none =>
    refine meanOf_congr fun x => ?_
    rw [List.ofFn_succ, Fin.cons_zero]
    simp only [exec, ht, Fin.cons_succ]

theorem mean_nonneg {f : β → ℝ} (hf : ∀ b, 0 ≤ f b) (p : Ask β) : 0 ≤ p.mean f := by
  induction p with
  | ret b => exact hf b
  | ask n k ih => exact div_nonneg (Finset.sum_nonneg fun i _ => ih i) (Nat.cast_nonneg _)

/-- The answers that come in time never weigh more than their share. -/
theorem part_le {f : β → ℝ} (hf : ∀ b, 0 ≤ f b) (m : Nat) : ∀ {d : Nat} {p : Ask β}, p.Fits d → part m f p ≤ p.mean f := by
  induction m with
  | zero =>
    intro d p hp
    cases p with
    | ret b => rw [part_ret]; rfl
    | ask n k => rw [part_zero]; exact mean_nonneg hf _
  | succ m ih =>
    intro d p hp
    cases p with
    | ret b => rw [part_ret]; rfl
    | ask n k =>
      cases d with
      | zero => exact hp.elim
      | succ d =>
        obtain ⟨h0, h1, h2⟩ := hp
        have hlt : (n : ℝ) < 2 ^ n.size := by exact_mod_cast Nat.lt_size_self n
        have h0' : (0 : ℝ) < n := by exact_mod_cast h0
        rw [part_succ m f h1, div_le_iff₀ (by positivity)]
        have e : (∑ r ∈ Finset.range n, (k r).mean f) = n * (ask n k).mean f := by
          show _ = n * ((∑ i ∈ Finset.range n, (k i).mean f) / n)
          field_simp
        have a1 : ∑ r ∈ Finset.range n, part m f (k r) ≤ n * (ask n k).mean f :=
          (Finset.sum_le_sum fun r hr => ih (h2 r (Finset.mem_range.1 hr))).trans (le_of_eq e)
        have a2 : ((2 : ℝ) ^ n.size - n) * part m f (ask n k) ≤ (2 ^ n.size - n) * (ask n k).mean f :=
          mul_le_mul_of_nonneg_left (ih (d := d + 1) ⟨h0, h1, h2⟩) (by linarith)
        linarith

theorem size_half {n : Nat} (h0 : 0 < n) : (2 : ℝ) ^ n.size ≤ 2 * n := by
  have h : n.size ≠ 0 := fun h => by rw [Nat.size_eq_zero] at h; omega
  obtain ⟨s, hs⟩ := Nat.exists_eq_succ_of_ne_zero h
  have : 2 ^ s ≤ n := Nat.lt_size.1 (by omega)
  rw [hs, pow_succ]
  have : (2 : ℝ) ^ s ≤ n := by exact_mod_cast this
  linarith

/-- How unlikely it is that `m` words are not enough. -/
theorem part_miss (m : Nat) : ∀ {d : Nat} {p : Ask β}, p.Fits d → 1 - part m (fun _ => 1) p ≤ 2 ^ d * (3 / 4) ^ m := by
  induction m with
  | zero =>
    intro d p hp
    cases p with
    | ret b => rw [part_ret, sub_self]; positivity
    | ask n k =>
      rw [part_zero, pow_zero, mul_one, sub_zero]
      exact one_le_pow₀ (by norm_num)
  | succ m ih =>
    intro d p hp
    cases p with
    | ret b => rw [part_ret, sub_self]; positivity
    | ask n k =>
      cases d with
      | zero => exact hp.elim
      | succ d =>
        have hp' := hp
        obtain ⟨h0, h1, h2⟩ := hp
        have hlt : (n : ℝ) < 2 ^ n.size := by exact_mod_cast Nat.lt_size_self n
        have h0' : (0 : ℝ) < n := by exact_mod_cast h0
        have hK : (0 : ℝ) < 2 ^ n.size := by positivity
        have hh := size_half h0
        rw [part_succ m _ h1]
        have a1 : (n : ℝ) - ∑ r ∈ Finset.range n, part m (fun _ => 1) (k r) ≤ n * (2 ^ d * (3 / 4) ^ m) := by
          have : ∑ r ∈ Finset.range n, (1 - part m (fun _ => 1) (k r)) ≤ ∑ r ∈ Finset.range n, (2 ^ d * (3 / 4) ^ m : ℝ) :=
            Finset.sum_le_sum fun r hr => ih (h2 r (Finset.mem_range.1 hr))
          rw [Finset.sum_sub_distrib] at this
          simpa using this
        have a2 : ((2 : ℝ) ^ n.size - n) * (1 - part m (fun _ => 1) (ask n k)) ≤ (2 ^ n.size - n) * (2 ^ (d + 1) * (3 / 4) ^ m) :=
          mul_le_mul_of_nonneg_left (ih hp') (by linarith)
        generalize ∑ r ∈ Finset.range n, part m (fun _ => 1) (k r) = X at *
        generalize part m (fun _ => 1) (ask n k) = Y at *
        rw [pow_succ] at a2 ⊢
        rw [pow_succ]
        have hz : (0 : ℝ) < 2 ^ d * (3 / 4) ^ m := by positivity
        generalize (2 : ℝ) ^ n.size = K at *
        have e : 1 - (X + (K - n) * Y) / K = ((n - X) + (K - n) * (1 - Y)) / K := by
          field_simp
          ring
        rw [e, div_le_iff₀ hK]
        generalize hZ : (2 : ℝ) ^ d * (3 / 4) ^ m = Z at *
        have e1 : (2 : ℝ) ^ d * 2 * (3 / 4) ^ m = 2 * Z := by rw [← hZ]; ring
        have e2 : (2 : ℝ) ^ d * 2 * ((3 / 4) ^ m * (3 / 4)) = 3 / 2 * Z := by rw [← hZ]; ring
        rw [e1] at a2
        rw [e2]
        nlinarith

/-- With `m` words the average is the ideal one up to a small error. -/
theorem part_bounds {f : β → ℝ} (h0 : ∀ b, 0 ≤ f b) (h1 : ∀ b, f b ≤ 1) (m : Nat) {d : Nat} {p : Ask β} (hp : p.Fits d) :
    p.mean f - 2 ^ d * (3 / 4) ^ m ≤ part m f p ∧ part m f p ≤ p.mean f := by
  refine ⟨?_, part_le h0 m hp⟩
  have hs : part m f p + part m (fun b => 1 - f b) p = part m (fun _ => 1) p := by
    unfold part
    rw [meanOf, meanOf, meanOf, ← add_div, ← Finset.sum_add_distrib]
    congr 1
    refine Finset.sum_congr rfl fun x _ => ?_
    cases exec (List.ofFn x) p with
    | none => exact add_zero 0
    | some b => show f b + (1 - f b) = 1; ring
  have hm : ∀ {d : Nat} {p : Ask β}, p.Fits d → p.mean f + p.mean (fun b => 1 - f b) = 1 := by
    intro d p
    induction p generalizing d with
    | ret b => intro _; show f b + (1 - f b) = 1; ring
    | ask n k ih =>
      intro hp
      cases d with
      | zero => exact hp.elim
      | succ d =>
        obtain ⟨g0, _, g2⟩ := hp
        have g0' : (0 : ℝ) < n := by exact_mod_cast g0
        show (∑ i ∈ Finset.range n, (k i).mean f) / n + (∑ i ∈ Finset.range n, (k i).mean fun b => 1 - f b) / n = 1
        rw [← add_div, ← Finset.sum_add_distrib, Finset.sum_congr rfl fun i hi => ih i (g2 i (Finset.mem_range.1 hi)), Finset.sum_const,
          Finset.card_range, nsmul_eq_mul, mul_one, div_self g0'.ne']
  have a := part_miss m hp
  have b := part_le (f := fun b => 1 - f b) (fun b => by linarith [h1 b]) m hp
  have c := hm hp
  linarith

/-! ### Endless words -/

theorem exec_ask_exists {n : Nat} {k : Nat → Ask β} {b : β} : ∀ {ws : List Word}, exec ws (ask n k) = some b → ∃ w ∈ ws, getBits n.size w < n
  | [], h => by cases h
  | w :: ws, h => by
    by_cases hw : getBits n.size w < n
    · exact ⟨w, List.mem_cons_self, hw⟩
    · simp only [exec, tryBelow, if_neg hw] at h
      obtain ⟨w', h1, h2⟩ := exec_ask_exists h
      exact ⟨w', List.mem_cons_of_mem _ h1, h2⟩

theorem randBelow_here {n : Nat} {w : Nat → Word} (h : getBits n.size (w 0) < n) : randBelow n w = (getBits n.size (w 0), fun i => w (i + 1)) := by
  have hex : ∃ t, getBits n.size (w t) < n := ⟨0, h⟩
  have h0 : Nat.find hex = 0 := (Nat.find_eq_zero hex).2 h
  unfold randBelow
  rw [dif_pos hex]
  simp only [h0]
  refine Prod.ext rfl ?_
  funext i
  show w (0 + 1 + i) = w (i + 1)
  congr 1
  omega

theorem randBelow_later {n : Nat} {w : Nat → Word} (h : ¬ getBits n.size (w 0) < n) (hex : ∃ t, getBits n.size (w (t + 1)) < n) :
    randBelow n w = randBelow n fun i => w (i + 1) := by
  have hex' : ∃ t, getBits n.size (w t) < n := ⟨_, hex.choose_spec⟩
  have hf : Nat.find hex' = Nat.find hex + 1 := by
    rw [Nat.find_eq_iff]
    refine ⟨Nat.find_spec hex, fun t ht => ?_⟩
    cases t with
    | zero => exact h
    | succ t => exact Nat.find_min hex (by omega)
  unfold randBelow
  rw [dif_pos hex', dif_pos hex]
  simp only [hf]
  refine Prod.ext rfl ?_
  funext i
  show w (Nat.find hex + 1 + 1 + i) = w (Nat.find hex + 1 + i + 1)
  congr 1
  omega

/-- If some first words are enough, the run ends with that result. -/
theorem run_of_exec (seed : Int → Nat → Word) {b : β} (m : Nat) : ∀ {w : Nat → Word} {p : Ask β},
    exec (List.ofFn fun i : Fin m => w i) p = some b → (p.run (wordRng seed) w).1 = b := by
  induction m with
  | zero =>
    intro w p h
    cases p with
    | ret c => rw [List.ofFn_zero] at h; exact Option.some.inj h
    | ask n k => rw [List.ofFn_zero] at h; cases h
  | succ m ih =>
    intro w p h
    rw [List.ofFn_succ] at h
    cases p with
    | ret c => exact Option.some.inj h
    | ask n k =>
      by_cases hw : getBits n.size (w 0) < n
      · have h' : exec (List.ofFn fun i : Fin m => (fun j => w (j + 1)) i) (k (getBits n.size (w 0))) = some b := by
          have ht : tryBelow n (w ((0 : Fin (m + 1)) : Nat)) = some (getBits n.size (w 0)) := if_pos hw
          simp only [exec, ht] at h
          exact h
        show ((k (randBelow n w).1).run (wordRng seed) (randBelow n w).2).1 = b
        rw [randBelow_here hw]
        exact ih (w := fun j => w (j + 1)) h'
      · have h' : exec (List.ofFn fun i : Fin m => (fun j => w (j + 1)) i) (ask n k) = some b := by
          have ht : tryBelow n (w ((0 : Fin (m + 1)) : Nat)) = none := if_neg hw
          simp only [exec, ht] at h
          exact h
        obtain ⟨w', h1, h2⟩ := exec_ask_exists h'
        obtain ⟨i, hi⟩ := List.mem_ofFn.1 h1
        have hex : ∃ t, getBits n.size (w (t + 1)) < n := ⟨i.1, by rw [← hi] at h2; exact h2⟩
        have := ih (w := fun j => w (j + 1)) h'
        show ((k (randBelow n w).1).run (wordRng seed) (randBelow n w).2).1 = b
        rw [randBelow_later hw hex]
        exact this

end Ask

/-! ### Independent uniform words -/

/-- The law of a uniform word. -/
noncomputable def uniformWord : Measure Word := (PMF.uniformOfFintype Word).toMeasure

instance : IsProbabilityMeasure uniformWord := PMF.toMeasure.isProbabilityMeasure _

/-- The law of endless independent uniform words. -/
noncomputable def uniformWords : Measure (Nat → Word) := Measure.infinitePi fun _ => uniformWord

instance : IsProbabilityMeasure uniformWords := by unfold uniformWords; infer_instance

theorem uniformWord_singleton (w : Word) : uniformWord {w} = ENNReal.ofReal ((2 ^ 32)⁻¹) := by
  unfold uniformWord
  rw [PMF.toMeasure_apply_singleton _ _ (measurableSet_singleton w), PMF.uniformOfFintype_apply, Fintype.card_fin,
    ENNReal.ofReal_inv_of_pos (by positivity), ENNReal.ofReal_pow (by norm_num)]
  norm_num

/-- The probability of an event that depends on the first `m` words is the fraction of the sequences of `m` words for which it happens. -/
theorem uniformWords_first (m : Nat) (A : (Fin m → Word) → Prop) :
    uniformWords {w | A fun i => w i} = ENNReal.ofReal (meanOf fun x : Fin m → Word => ind (A x)) := by
  classical
  have hbox : ∀ x : Fin m → Word, MeasurableSet {w : Nat → Word | (fun i : Fin m => w i) = x} := by
    intro x
    have : {w : Nat → Word | (fun i : Fin m => w i) = x} = ⋂ i : Fin m, (fun w : Nat → Word => w i) ⁻¹' {x i} := by
      ext w
      simp [funext_iff]
    rw [this]
    exact MeasurableSet.iInter fun i => measurable_pi_apply _ (measurableSet_singleton _)
  have hone : ∀ x : Fin m → Word, uniformWords {w : Nat → Word | (fun i : Fin m => w i) = x} = ENNReal.ofReal (((2 ^ 32)⁻¹) ^ m) := by
    intro x
    have e : {w : Nat → Word | (fun i : Fin m => w i) = x} =
        Set.pi (Finset.range m : Set Nat) fun i => if h : i < m then {x ⟨i, h⟩} else Set.univ := by
      ext w
      simp only [Set.mem_ofPred_eq, Set.mem_pi, Finset.coe_range, Set.mem_Iio]
      constructor
      · intro h i hi
        rw [dif_pos hi, ← h]
        rfl
      · intro h
        funext i
        have := h i.1 i.2
        rw [dif_pos i.2] at this
        exact this
    rw [e, uniformWords, Measure.infinitePi_pi _ (fun i hi => by split <;> measurability)]
    rw [Finset.prod_congr rfl (g := fun _ => ENNReal.ofReal ((2 ^ 32)⁻¹)) (fun i hi => by
      rw [dif_pos (Finset.mem_range.1 hi), uniformWord_singleton])]
    rw [Finset.prod_const, Finset.card_range, ENNReal.ofReal_pow (by positivity)]
  have hu : {w : Nat → Word | A fun i => w i} = ⋃ x ∈ Finset.univ.filter A, {w : Nat → Word | (fun i : Fin m => w i) = x} := by
    ext w
    simp
  rw [hu, measure_biUnion_finset (fun x _ y _ hxy => by
    refine Set.disjoint_left.2 fun w h1 h2 => hxy ?_
    exact h1.symm.trans h2) (fun x _ => hbox x)]
  rw [Finset.sum_congr rfl fun x _ => hone x, Finset.sum_const, nsmul_eq_mul, ← ENNReal.ofReal_natCast, ← ENNReal.ofReal_mul (Nat.cast_nonneg _)]
  congr 1
  unfold meanOf ind
  rw [Finset.sum_boole, Fintype.card_fun, Fintype.card_fin, Fintype.card_fin, div_eq_mul_inv, inv_pow, Nat.cast_pow, Nat.cast_pow, Nat.cast_ofNat]

/-- The law of the result of a computation that takes its numbers from independent uniform words by rejection is that of uniform independent
answers. -/
theorem Ask.law (seed : Int → Nat → Word) {d : Nat} {p : Ask β} (hp : p.Fits d) (B : Set β) :
    uniformWords {w | (p.run (wordRng seed) w).1 ∈ B} = ENNReal.ofReal (p.mean fun b => ind (b ∈ B)) := by
  have i0 : ∀ P : Prop, 0 ≤ ind P := fun P => by unfold ind; split <;> norm_num
  have i1 : ∀ P : Prop, ind P ≤ 1 := fun P => by unfold ind; split <;> norm_num
  have first : ∀ (m : Nat) (C : Set β), uniformWords {w | ∃ b ∈ C, exec (List.ofFn fun i : Fin m => w i) p = some b} =
      ENNReal.ofReal (part m (fun b => ind (b ∈ C)) p) := by
    intro m C
    rw [uniformWords_first m fun x => ∃ b ∈ C, exec (List.ofFn x) p = some b]
    congr 1
    refine meanOf_congr fun x => ?_
    cases he : exec (List.ofFn x) p with
    | none => simp [ind, score]
    | some c =>
      show _ = ind (c ∈ C)
      congr 1
      exact propext ⟨fun ⟨b, h1, h2⟩ => by rw [Option.some.inj h2]; exact h1, fun h => ⟨c, h, rfl⟩⟩
  have lo : ∀ m : Nat, ENNReal.ofReal ((p.mean fun b => ind (b ∈ B)) - 2 ^ d * (3 / 4) ^ m) ≤ uniformWords {w | (p.run (wordRng seed) w).1 ∈ B} := by
    intro m
    refine (ENNReal.ofReal_le_ofReal (part_bounds (fun b => i0 (b ∈ B)) (fun b => i1 _) m hp).1).trans ?_
    rw [← first m B]
    refine measure_mono ?_
    rintro w ⟨b, hb, he⟩
    show (p.run (wordRng seed) w).1 ∈ B
    rw [run_of_exec seed m he]
    exact hb
  have hi : ∀ m : Nat, uniformWords {w | (p.run (wordRng seed) w).1 ∈ B} ≤ ENNReal.ofReal ((p.mean fun b => ind (b ∈ B)) + 2 ^ d * (3 / 4) ^ m) := by
    intro m
    have hsub : {w | (p.run (wordRng seed) w).1 ∈ B} ⊆ {w | ∃ b ∈ B, exec (List.ofFn fun i : Fin m => w i) p = some b} ∪
        {w | ¬ ∃ b ∈ Set.univ, exec (List.ofFn fun i : Fin m => w i) p = some b} := by
      intro w hw
      by_cases h : ∃ b ∈ Set.univ, exec (List.ofFn fun i : Fin m => w i) p = some b
      · obtain ⟨b, _, he⟩ := h
        exact .inl ⟨b, by rw [← run_of_exec seed m he]; exact hw, he⟩
      · exact .inr h
    have hmiss : uniformWords {w | ¬ ∃ b ∈ Set.univ, exec (List.ofFn fun i : Fin m => w i) p = some b} ≤ ENNReal.ofReal (2 ^ d * (3 / 4) ^ m) := by
      rw [uniformWords_first m fun x => ¬ ∃ b ∈ Set.univ, exec (List.ofFn x) p = some b]
      refine ENNReal.ofReal_le_ofReal (le_trans (le_of_eq ?_) (part_miss m hp))
      unfold part
      rw [show ∀ F : (Fin m → Word) → ℝ, 1 - meanOf F = meanOf fun x => 1 - F x from fun F => by rw [meanOf_sub, meanOf_const]]
      refine meanOf_congr fun x => ?_
      cases he : exec (List.ofFn x) p with
      | none => simp [ind, score]
      | some c =>
        show ind _ = 1 - 1
        rw [sub_self, ind, if_neg (fun h => h ⟨c, trivial, rfl⟩)]
    calc uniformWords {w | (p.run (wordRng seed) w).1 ∈ B}
        ≤ _ := measure_mono hsub
      _ ≤ _ := measure_union_le _ _
      _ ≤ ENNReal.ofReal (p.mean fun b => ind (b ∈ B)) + ENNReal.ofReal (2 ^ d * (3 / 4) ^ m) := by
          refine add_le_add ?_ hmiss
          rw [first m B]
          exact ENNReal.ofReal_le_ofReal (part_bounds (fun b => i0 (b ∈ B)) (fun b => i1 _) m hp).2
      _ = _ := (ENNReal.ofReal_add (mean_nonneg (fun b => i0 _) p) (by positivity)).symm
  have lim : Filter.Tendsto (fun m : Nat => (2 : ℝ) ^ d * (3 / 4) ^ m) Filter.atTop (nhds 0) := by
    have := (tendsto_pow_atTop_nhds_zero_of_lt_one (r := (3 / 4 : ℝ)) (by norm_num) (by norm_num)).const_mul ((2 : ℝ) ^ d)
    rwa [mul_zero] at this
  refine le_antisymm ?_ ?_
  · refine ge_of_tendsto' (x := Filter.atTop) (f := fun m : Nat => ENNReal.ofReal ((p.mean fun b => ind (b ∈ B)) + 2 ^ d * (3 / 4) ^ m)) ?_ hi
    have := ENNReal.tendsto_ofReal (lim.const_add (p.mean fun b => ind (b ∈ B)))
    rwa [add_zero] at this
  · refine le_of_tendsto' (x := Filter.atTop) (f := fun m : Nat => ENNReal.ofReal ((p.mean fun b => ind (b ∈ B)) - 2 ^ d * (3 / 4) ^ m)) ?_ lo
    have := ENNReal.tendsto_ofReal (lim.const_sub (p.mean fun b => ind (b ∈ B)))
    rwa [sub_zero] at this

end SqPerc
