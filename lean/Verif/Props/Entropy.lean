import Verif.Proof.Progress
import Verif.Props.Obs
import Mathlib.Algebra.BigOperators.Field
import Mathlib.Analysis.SpecialFunctions.Log.Basic
import Mathlib.Algebra.Order.BigOperators.Ring.Finset
/-
Properties C14, C15: the entropy, in exact real arithmetic.
-/
namespace SqPerc

variable {L : Nat} {v : Variant}

/-- Exact real arithmetic. -/
noncomputable def realArith : Arith ℝ :=
  ⟨fun n => (n : ℝ), fun a b => a + b, fun a b => a - b, fun a b => a * b, fun a b => a / b, fun a => -a, Real.log⟩

/-- Exact real arithmetic with any set iteration order. -/
noncomputable def realEnv (so : SetOrder) : Env ℝ := ⟨so, realArith⟩

variable {so : SetOrder} {S S' : Perc ℝ}

/-- Shannon entropy of the distribution of the bonds over the components: `-Σ μ log μ`, `μ` the fraction of bonds in a component. -/
noncomputable def shannon (L : Nat) (occ : Nat → Prop) : ℝ :=
  -∑ X ∈ bondComps L occ, ((X.card : ℝ) / (2 * (L * L) : Nat)) * Real.log ((X.card : ℝ) / (2 * (L * L) : Nat))

/-- The contribution `μ log μ` of a component with `n` bonds. -/
noncomputable def mulog (L n : Nat) : ℝ := ((n : ℝ) / (2 * (L * L) : Nat)) * Real.log ((n : ℝ) / (2 * (L * L) : Nat))

theorem mulog_zero (L : Nat) : mulog L 0 = 0 := by simp [mulog]

theorem muLog_real (L n : Nat) : muLog (realEnv so) L n = mulog L n := rfl

theorem foldl_add_sum (f : Int → ℝ) (l : List Int) (x : ℝ) : l.foldl (fun h g => h + f g) x = x + (l.map f).sum := by
  induction l generalizing x with
  | nil => simp
  | cons a l ih => rw [List.foldl_cons, ih, List.map_cons, List.sum_cons]; ring

theorem adjSum_real {V : LV} {P : PV} {k : Nat} : adjSum (realEnv so) L V P k = ∑ g ∈ adjSet L V k, mulog L (P.len g) := by
  have h1 := foldl_add_sum (fun g => mulog L (P.len g)) (so.iter ((siteBonds L k).map V.bg)) 0
  have : adjSum (realEnv so) L V P k =
      (so.iter ((siteBonds L k).map V.bg)).foldl (fun h g => h + mulog L (P.len g)) (((0 : Nat) : ℝ)) := rfl
  rw [this, Nat.cast_zero, h1, zero_add, ← List.sum_toFinset _ (so.iter_nodup _)]
  refine Finset.sum_congr ?_ fun _ _ => rfl
  ext g
  rw [List.mem_toFinset, so.iter_mem, adjSet, List.mem_toFinset]

/-- Invariant for the entropy. -/
def EntInv (L : Nat) (A : Abs ℝ) : Prop := A.ent = -∑ g ∈ gids L, mulog L (A.P.len g)

theorem card_gids (L : Nat) : (gids L).card = 2 * (L * L) := by
  rw [gids, Int.card_Ico]; omega

theorem EntInv.init (hL : 0 < L) (sel : Option Nat) : EntInv L (Abs.init (realEnv so) L sel) := by
  have hB : ((2 * (L * L) : Nat) : ℝ) ≠ 0 := by
    have : 2 * (L * L) ≠ 0 := by have := Nat.mul_pos hL hL; omega
    exact_mod_cast this
  show Real.log ((2 * (L * L) : Nat) : ℝ) = _
  have : ∀ g ∈ gids L, mulog L ((Abs.init (realEnv so) L sel).P.len g) = mulog L 1 := by
    intro g hg
    congr 1
  rw [Finset.sum_congr rfl this, Finset.sum_const, card_gids, mulog, nsmul_eq_mul, Nat.cast_one, Real.log_div one_ne_zero hB, Real.log_one]
  field_simp
  ring

theorem EntInv.step {A A' : Abs ℝ} (I : AInv L A) (h : EntInv L A) (hs : AStep (realEnv so) L A A') : EntInv L A' := by
  cases hs with
  | @place k r V' P' hk hu E _ =>
    unfold EntInv at *
    show A.ent + adjSum (realEnv so) L A.V A.P k - muLog (realEnv so) L (P'.cb r).length = -∑ g ∈ gids L, mulog L (P'.len g)
    rw [E.sum_len (mulog L) (mulog_zero L) I.core hk, adjSum_real, muLog_real, h]
    show _ = -(_ - _ + mulog L (P'.cb r).length)
    ring
  | tick h' => exact h
  | detect _ _ _ _ => exact h
  | reselect _ _ => exact h

theorem AReach.ent (hL : 0 < L) {A : Abs ℝ} (h : AReach (realEnv so) L A) : EntInv L A := by
  induction h with
  | init _ => exact EntInv.init hL _
  | step h hs ih => exact ih.step h.inv hs

theorem Core.shannon {V : LV} {P : PV} (C : Core L V P) : shannon L (VOcc L V) = -∑ g ∈ gids L, mulog L (P.len g) := by
  have := C.sum_comps (mulog L) (mulog_zero L)
  unfold SqPerc.shannon
  rw [← this]; rfl

/-- C15: `entropy()` is the Shannon entropy of the connected components of bonds. -/
theorem C15_entropy_shannon (h : Reach (realEnv so) v L S) : S.entropy = shannon L S.Occ := by
  obtain ⟨hL, A, M, hA⟩ := h.sim
  rw [Perc.entropy, M.ent, M.occ_eq, hA.inv.core.shannon]
  exact hA.ent hL

theorem entropyV1Loop_mk {A : Abs ℝ} (M : Sim (realEnv so) L S A) (is : List Nat) (h : ∀ i ∈ is, i < 2 * (L * L)) (x : ℝ) :
    S.entropyV1Loop (realEnv so) is x = .ok (x + (is.map fun i : Nat => mulog L (A.P.len (i : Int))).sum) := by
  induction is generalizing x with
  | nil => simp [Perc.entropyV1Loop]
  | cons i is ih =>
    simp only [Perc.entropyV1Loop]
    rw [M.bondCount (natCast_mem_gids (h i (by simp)))]
    show (if A.P.len i = 0 then _ else _) = _
    have hB : S.lat.bondCount = 2 * (L * L) := by rw [M.lat, mkLat_bondCount]
    split
    · next h0 =>
      rw [ih (fun j hj => h j (by simp [hj]))]
      simp [h0, mulog_zero]
    · rw [ih (fun j hj => h j (by simp [hj])), hB, List.map_cons, List.sum_cons]
      refine congrArg _ ?_
      show x + mulog L (A.P.len i) + _ = _
      ring

theorem sum_range_gids {M : Type} [AddCommMonoid M] (f : Int → M) : ∑ i ∈ Finset.range (2 * (L * L)), f i = ∑ g ∈ gids L, f g := by
  symm
  refine Finset.sum_bij' (fun g _ => g.toNat) (fun i _ => (i : Int)) ?_ ?_ ?_ ?_ ?_
  · intro g hg; have := mem_gids.1 hg; simp only [Finset.mem_range]; omega
  · intro i hi; exact natCast_mem_gids (Finset.mem_range.1 hi)
  · intro g hg; have := mem_gids.1 hg; simp only [Int.toNat_of_nonneg this.1]
  · intro i _; simp
  · intro g hg; have := mem_gids.1 hg; rw [Int.toNat_of_nonneg this.1]

/-- C14: `entropy_v1()` never raises and agrees with `entropy_v2()`, whatever the history. -/
theorem C14_entropies_agree (h : Reach (realEnv so) v L S) : S.entropyV1 (realEnv so) = .ok S.entropy := by
  have he := C15_entropy_shannon h
  obtain ⟨hL, A, M, hA⟩ := h.sim
  rw [Perc.entropyV1, M.cc, entropyV1Loop_mk M _ (fun i hi => List.mem_range.1 hi)]
  show Except.ok (-(((0 : Nat) : ℝ) + _)) = _
  refine congrArg _ ?_
  rw [he, M.occ_eq, hA.inv.core.shannon, ← sum_range_gids, Nat.cast_zero, zero_add]
  refine congrArg _ ?_
  generalize 2 * (L * L) = n
  induction n with
  | zero => simp
  | succ n ih => rw [List.range_succ, List.map_append, List.sum_append, ih, Finset.sum_range_succ]; simp

/-! ### Bounds -/

theorem mulog_nonpos {n : Nat} (h : n ≤ 2 * (L * L)) : mulog L n ≤ 0 := by
  unfold mulog
  have h1 : (0 : ℝ) ≤ (n : ℝ) / (2 * (L * L) : Nat) := by positivity
  have h2 : (n : ℝ) / (2 * (L * L) : Nat) ≤ 1 := div_le_one_of_le₀ (by exact_mod_cast h) (by positivity)
  exact mul_nonpos_of_nonneg_of_nonpos h1 (Real.log_nonpos h1 h2)

theorem mulog_lower {n : Nat} (hL : 0 < 2 * (L * L)) :
    -((n : ℝ) / (2 * (L * L) : Nat) * Real.log (2 * (L * L) : Nat)) ≤ mulog L n := by
  rcases Nat.eq_zero_or_pos n with rfl | hn
  · simp [mulog]
  · unfold mulog
    have hB : (0 : ℝ) < (2 * (L * L) : Nat) := by exact_mod_cast hL
    have hn' : (1 : ℝ) ≤ n := by exact_mod_cast hn
    rw [Real.log_div (by positivity) hB.ne', mul_sub]
    have : 0 ≤ (n : ℝ) / (2 * (L * L) : Nat) * Real.log n := mul_nonneg (by positivity) (Real.log_nonneg hn')
    linarith

/-- C15: `0 ≤ entropy() ≤ log (2 L²)`. -/
theorem C15_bounds (h : Reach (realEnv so) v L S) : 0 ≤ S.entropy ∧ S.entropy ≤ Real.log (2 * (L * L) : Nat) := by
  obtain ⟨hL, A, M, hA⟩ := h.sim
  have C := hA.inv.core
  have hB : 0 < 2 * (L * L) := by have := Nat.mul_pos hL hL; omega
  have hB' : ((2 * (L * L) : Nat) : ℝ) ≠ 0 := by exact_mod_cast hB.ne'
  rw [Perc.entropy, M.ent, show A.ent = _ from hA.ent hL]
  constructor
  · rw [neg_nonneg]
    exact Finset.sum_nonpos fun g hg => mulog_nonpos (C.len_le hg)
  · rw [neg_le]
    calc -Real.log (2 * (L * L) : Nat)
        = ∑ g ∈ gids L, -((A.P.len g : ℝ) / (2 * (L * L) : Nat) * Real.log (2 * (L * L) : Nat)) := by
          rw [Finset.sum_neg_distrib, ← Finset.sum_mul, ← Finset.sum_div, ← Nat.cast_sum, C.sum_len, div_self hB', one_mul]
      _ ≤ _ := Finset.sum_le_sum fun g _ => mulog_lower hB

/-- C15: the entropy is 0 when every site is occupied. -/
theorem C15_full (h : Reach (realEnv so) v L S) (hf : ∀ s < L * L, S.Occ s) : S.entropy = 0 := by
  obtain ⟨hL, A, M, hA⟩ := h.sim
  have C := hA.inv.core
  have hB : 0 < 2 * (L * L) := by have := Nat.mul_pos hL hL; omega
  have hB' : ((2 * (L * L) : Nat) : ℝ) ≠ 0 := by exact_mod_cast hB.ne'
  rw [M.occ_eq] at hf
  rw [Perc.entropy, M.ent, show A.ent = _ from hA.ent hL, neg_eq_zero]
  have h0 := C.full_len hf hB
  have hr := mem_gids.2 (C.bgr 0 hB)
  rw [Finset.sum_eq_single_of_mem _ hr, h0]
  · unfold mulog; rw [div_self hB']; simp
  · intro g hg hne
    have := C.sum_len
    rw [← Finset.add_sum_erase _ _ hr, h0] at this
    have h1 : ∑ g ∈ (gids L).erase (A.V.bg 0), A.P.len g = 0 := by omega
    rw [Finset.sum_eq_zero_iff] at h1
    rw [h1 g (Finset.mem_erase.2 ⟨hne, hg⟩), mulog_zero]

theorem mulog_div (L n : Nat) : mulog L n = (n : ℝ) / (2 * (L * L) : Nat) * Real.log ((n : ℝ) / (2 * (L * L) : Nat)) := rfl

/-- Merging lowers `-Σ μ log μ`, strictly if two non-empty clusters are merged. -/
theorem PlaceEffect.mulog_le {k : Nat} {r : Int} {V V' : LV} {P P' : PV} (E : PlaceEffect L k r V V' P P') (C : Core L V P) (hk : k < L * L) :
    ∑ g ∈ adjSet L V k, mulog L (P.len g) ≤ mulog L (P'.len r) ∧
      ((∃ g g', Adj L V k g ∧ Adj L V k g' ∧ g ≠ g') → ∑ g ∈ adjSet L V k, mulog L (P.len g) < mulog L (P'.len r)) ∧
      ((¬ ∃ g g', Adj L V k g ∧ Adj L V k g' ∧ g ≠ g') → ∑ g ∈ adjSet L V k, mulog L (P.len g) = mulog L (P'.len r)) := by
  have hB : (0 : ℝ) < (2 * (L * L) : Nat) := by exact_mod_cast (by omega : 0 < 2 * (L * L))
  have key : ∀ g, Adj L V k g → mulog L (P.len g) ≤ (P.len g : ℝ) / (2 * (L * L) : Nat) * Real.log ((P'.len r : ℝ) / (2 * (L * L) : Nat)) := by
    intro g hg
    have hp : (0 : ℝ) < P.len g := by exact_mod_cast C.len_pos hk hg
    have hle : (P.len g : ℝ) ≤ P'.len r := by exact_mod_cast E.len_le_root hg
    unfold mulog
    gcongr
  have key' : ∀ g, Adj L V k g → (∃ g', Adj L V k g' ∧ g ≠ g') →
      mulog L (P.len g) < (P.len g : ℝ) / (2 * (L * L) : Nat) * Real.log ((P'.len r : ℝ) / (2 * (L * L) : Nat)) := by
    rintro g hg ⟨g', hg', hne⟩
    have hp : (0 : ℝ) < P.len g := by exact_mod_cast C.len_pos hk hg
    have hlt : (P.len g : ℝ) < P'.len r := by
      have := E.len_add_le hg hg' hne
      have := C.len_pos hk hg'
      exact_mod_cast (by omega : P.len g < P'.len r)
    unfold mulog
    gcongr
  have hsum : mulog L (P'.len r) =
      ∑ g ∈ adjSet L V k, (P.len g : ℝ) / (2 * (L * L) : Nat) * Real.log ((P'.len r : ℝ) / (2 * (L * L) : Nat)) := by
    rw [← Finset.sum_mul, ← Finset.sum_div, ← Nat.cast_sum, ← E.len_root]; rfl
  refine ⟨?_, ?_, ?_⟩
  · rw [hsum]
    exact Finset.sum_le_sum fun g hg => key g (mem_adjSet.1 hg)
  · rintro ⟨g, g', hg, hg', hne⟩
    rw [hsum]
    exact Finset.sum_lt_sum (fun g hg => key g (mem_adjSet.1 hg)) ⟨g, mem_adjSet.2 hg, key' g hg ⟨g', hg', hne⟩⟩
  · intro hn
    have hall : ∀ g ∈ adjSet L V k, g = r := by
      intro g hg
      by_contra hne
      exact hn ⟨g, r, mem_adjSet.1 hg, E.adj, hne⟩
    have hs : adjSet L V k = {r} := by
      ext g; rw [Finset.mem_singleton]
      exact ⟨hall g, fun h => h ▸ mem_adjSet.2 E.adj⟩
    have hl := E.len_root
    rw [hs, Finset.sum_singleton] at hl
    rw [hs, Finset.sum_singleton, hl]

theorem AStep.ent_le {A A' : Abs ℝ} (I : AInv L A) (h : AStep (realEnv so) L A A') : A'.ent ≤ A.ent := by
  cases h with
  | @place k r V' P' hk hu E _ =>
    show A.ent + adjSum (realEnv so) L A.V A.P k - muLog (realEnv so) L (P'.cb r).length ≤ A.ent
    rw [adjSum_real, muLog_real]
    have := (E.mulog_le I.core hk).1
    unfold PV.len at *
    linarith
  | tick h' => exact le_rfl
  | detect _ _ _ _ => exact le_rfl
  | reselect _ _ => exact le_rfl

theorem ASteps.ent_le {A A' : Abs ℝ} (I : AInv L A) (h : ASteps (realEnv so) L A A') : A'.ent ≤ A.ent := by
  induction h with
  | refl => exact le_rfl
  | tail h1 h2 ih => exact (h2.ent_le (I.steps h1)).trans ih

/-- C15: no call other than `reset` increases the entropy. -/
theorem C15_monotone (h : Reach (realEnv so) v L S) {op : Op} (hs : step (realEnv so) v S op = .ok S') (hr : op.isReset = false) :
    S'.entropy ≤ S.entropy := by
  obtain ⟨_, A, M, hA⟩ := h.sim
  rcases step_steps M hA.inv hs with ⟨h', _⟩ | ⟨_, A', h1, M'⟩
  · rw [hr] at h'; cases h'
  · rw [Perc.entropy, Perc.entropy, M.ent, M'.ent]; exact h1.ent_le hA.inv

/-- C15: a placement lowers the entropy strictly exactly when it joins two different components, and otherwise leaves it. -/
theorem C15_strict (h : Reach (realEnv so) v L S) {d : Draw} {b : Bool} (hp : S.placeOneSite (realEnv so) v d = .ok (S', b))
    (hf : S'.selectionFlag = some .success) : ∃ k, S'.selected = some k ∧
      ((∃ d d', ¬ BondConn L S.Occ (bondAt L k d) (bondAt L k d')) → S'.entropy < S.entropy) ∧
      ((∀ d d', BondConn L S.Occ (bondAt L k d) (bondAt L k d')) → S'.entropy = S.entropy) := by
  obtain ⟨_, A, M, hA⟩ := h.sim
  have C := hA.inv.core
  obtain ⟨_, V1, hV, h | h | h⟩ := placeOneSite_sim M hA.inv hp
  rotate_left
  · rw [h.1] at hf; cases hf
  · rw [h.1] at hf; cases hf
  obtain ⟨_, _, k, r, V', P', hk, hg, E, hr, hsel, M'⟩ := h
  have C1 := C.same hV
  have hc : ∀ d d', V1.bg (bondAt L k d) = V1.bg (bondAt L k d') ↔ BondConn L S.Occ (bondAt L k d) (bondAt L k d') := by
    intro d d'
    rw [M.occ_eq, ← hV.vocc]
    exact C1.conn _ _ (bondAt_lt hk d) (bondAt_lt hk d')
  have he : S'.entropy = S.entropy + ∑ g ∈ adjSet L V1 k, mulog L (A.P.len g) - mulog L (P'.len r) := by
    rw [Perc.entropy, Perc.entropy, M'.ent, M.ent, ← adjSum_real (so := so), ← muLog_real (so := so)]; rfl
  obtain ⟨_, h2, h3⟩ := E.mulog_le C1 hk
  refine ⟨k, hsel, ?_, ?_⟩
  · rintro ⟨d, d', hn⟩
    rw [← hc] at hn
    have := h2 ⟨_, _, ⟨d, rfl⟩, ⟨d', rfl⟩, hn⟩
    rw [he]; linarith
  · intro hall
    have := h3 (by
      rintro ⟨g, g', ⟨d, rfl⟩, ⟨d', rfl⟩, hne⟩
      exact hne ((hc d d').2 (hall d d')))
    rw [he]; linarith

end SqPerc
