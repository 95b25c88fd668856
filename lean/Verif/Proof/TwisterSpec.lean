import Verif.Proof.TwisterSeed
import Verif.Spec.Twister
import Mathlib.Data.Nat.Digits.Lemmas
import Mathlib.Data.List.GetD
/-
The model of the Mersenne Twister meets its specification.
-/
namespace SqPerc
namespace MT

open TwisterSpec

/-- The words of `init_genrand`. -/
def startSeq (s : W) : Nat → W
  | 0 => s
  | k + 1 => 1812433253#32 * (startSeq s k ^^^ (startSeq s k >>> 30)) + BitVec.ofNat 32 (k + 1)

theorem initGenrand_at (s : W) {k : Nat} (hk : k < 624) : at' (initGenrand s) k = startSeq s k := by
  have : ∀ n, ((List.range n).foldl
      (fun mt j => mt ++ [1812433253#32 * (at' mt j ^^^ (at' mt j >>> 30)) + BitVec.ofNat 32 (j + 1)]) [s]).length = n + 1 ∧
      ∀ k ≤ n, at' ((List.range n).foldl
        (fun mt j => mt ++ [1812433253#32 * (at' mt j ^^^ (at' mt j >>> 30)) + BitVec.ofNat 32 (j + 1)]) [s]) k = startSeq s k := by
    intro n
    induction n with
    | zero =>
      refine ⟨rfl, fun k hk => ?_⟩
      obtain rfl : k = 0 := by omega
      rfl
    | succ n ih =>
      rw [List.range_succ, List.foldl_append, List.foldl_cons, List.foldl_nil]
      generalize (List.range n).foldl
        (fun mt j => mt ++ [1812433253#32 * (at' mt j ^^^ (at' mt j >>> 30)) + BitVec.ofNat 32 (j + 1)]) [s] = l at ih
      obtain ⟨h1, h2⟩ := ih
      refine ⟨by rw [List.length_append, h1, List.length_singleton], fun k hk => ?_⟩
      by_cases e : k = n + 1
      · subst e
        show (l ++ [_]).getD (n + 1) 0 = _
        rw [List.getD_append_right _ _ _ _ (by omega), h1, Nat.sub_self, List.getD_cons_zero, h2 n le_rfl]
        rfl
      · rw [← h2 k (by omega)]
        exact List.getD_append _ _ _ _ (by omega)
  exact (this 623).2 k (by omega)

attribute [local irreducible] initGenrand

/-- All turns of both loops. -/
def stages (key : List W) (m : Nat) : Nat → Fill
  | 0 => ⟨initGenrand 19650218#32, 1, 0⟩
  | t + 1 => if t < m then fill1 key (stages key m t) else fill2 (stages key m t)

theorem stages_first (key : List W) (m : Nat) {t : Nat} (h : t ≤ m) : stages key m t = turns (fill1 key) t ⟨initGenrand 19650218#32, 1, 0⟩ := by
  induction t with
  | zero => rfl
  | succ t ih => rw [stages, if_pos (by omega), ih (by omega), turns_succ]

theorem stages_second (key : List W) (m n : Nat) : stages key m (m + n) = turns fill2 n (stages key m m) := by
  induction n with
  | zero => rfl
  | succ n ih => rw [← Nat.add_assoc, stages, if_neg (by omega), ih, turns_succ]

theorem stages_stage (key : List W) (m t : Nat) : Stage (stages key m t) := by
  induction t with
  | zero => exact first_stage
  | succ t ih =>
    rw [stages]
    split
    · exact fill1_stage key ih
    · exact fill2_stage ih

theorem write_prev {f : Fill} (h : Stage f) (v : W) : at' (wrap (f.mt.set f.i v) f.i).1 ((wrap (f.mt.set f.i v) f.i).2 - 1) = v := by
  have h1 := h.low
  have h2 := h.high
  have hl : (f.mt.set f.i v).length = 624 := by rw [List.length_set, h.len]
  have hset : ∀ p, at' (f.mt.set f.i v) p = if p = f.i then v else at' f.mt p := fun p => at_set (by rw [h.len]; omega)
  unfold wrap
  split
  · next hc =>
    have q : ∀ w p, at' ((f.mt.set f.i v).set 0 w) p = if p = 0 then w else at' (f.mt.set f.i v) p := fun w p => at_set (by rw [hl]; norm_num)
    simp only
    rw [q, if_pos rfl, hset, if_pos (by omega)]
  · next hc =>
    simp only
    rw [Nat.add_sub_cancel, hset, if_pos rfl]

theorem on_mod (t : Nat) : on (t % 623 + 1) = (t + 1) % 623 + 1 := by
  have := Nat.mod_lt t (show 0 < 623 by norm_num)
  unfold on
  split <;> omega

/-- The last word written. -/
def lastOf (f : Fill) : W := at' f.mt (f.i - 1)

/-- What is written when. -/
theorem stages_inv (key : List W) (m t : Nat) : (stages key m t).i = t % 623 + 1 ∧
    ∀ s, t < s → s ≤ t + 623 → at' (stages key m t).mt ((s - 1) % 623 + 1) =
      if s ≤ 623 then startSeq 19650218#32 s else lastOf (stages key m (s - 623)) := by
  induction t with
  | zero =>
    refine ⟨rfl, fun s h1 h2 => ?_⟩
    rw [if_pos (by omega), Nat.mod_eq_of_lt (by omega), Nat.sub_add_cancel (by omega)]
    exact initGenrand_at _ (by omega)
  | succ t ih =>
    obtain ⟨h1, h2⟩ := ih
    have hs := stages_stage key m t
    have hw : ∃ v j, stages key m (t + 1) = ⟨(wrap ((stages key m t).mt.set (stages key m t).i v) (stages key m t).i).1,
        (wrap ((stages key m t).mt.set (stages key m t).i v) (stages key m t).i).2, j⟩ := by
      rw [stages]
      split
      · exact ⟨_, _, fill1_eq key _⟩
      · exact ⟨_, _, fill2_eq _⟩
    obtain ⟨v, j, e⟩ := hw
    have hl : lastOf (stages key m (t + 1)) = v := by
      rw [e]
      exact write_prev hs v
    refine ⟨?_, fun s h3 h4 => ?_⟩
    · rw [e]
      simp only [wrap_snd, h1]
      exact on_mod t
    · rw [e]
      simp only
      rw [write_at hs v (by omega), h1]
      by_cases hc : s = t + 624
      · rw [if_pos (by omega), if_neg (by omega), hc, show t + 624 - 623 = t + 1 by omega, hl]
      · rw [if_neg (by omega), h2 s (by omega) (by omega)]

theorem seed_first {key : List W} (hk : 0 < key.length) : First key (at' (initByArray key).mt) := by
  set m := max 624 key.length with hm
  have e0 : (initByArray key).mt = (stages key m (m + 623)).mt.set 0 0x80000000#32 := by
    unfold initByArray
    rw [stages_second, stages_first key m le_rfl]
  have hst := stages_stage key m
  refine ⟨startSeq 19650218#32, fun t => lastOf (stages key m t), ⟨rfl, fun k => rfl⟩, ⟨?_, fun t ht => ?_, fun t h1 h2 => ?_⟩, ?_, fun s h1 h2 => ?_⟩
  · exact initGenrand_at 19650218#32 (k := 0) (by norm_num)
  · have hj : ∀ t, t ≤ m → (stages key m t).j = t % key.length := by
      intro t ht
      induction t with
      | zero => rw [Nat.zero_mod]; rfl
      | succ t ih =>
        rw [stages, if_pos (by omega), fill1_eq]
        simp only
        rw [ih (by omega)]
        exact mod_next hk
    have hi := (stages_inv key m t).2 (t + 1) (by omega) (by omega)
    rw [Nat.add_sub_cancel, ← (stages_inv key m t).1] at hi
    have ew : stages key m (t + 1) = fill1 key (stages key m t) := by rw [stages, if_pos ht]
    simp only
    rw [ew, fill1_eq, lastOf]
    simp only
    rw [write_prev (hst t), hi, hj t ht.le]
    rfl
  · have hi := (stages_inv key m t).2 (t + 1) (by omega) (by omega)
    rw [Nat.add_sub_cancel, ← (stages_inv key m t).1] at hi
    have ew : stages key m (t + 1) = fill2 (stages key m t) := by rw [stages, if_neg (by omega)]
    simp only
    rw [ew, fill2_eq, lastOf]
    simp only
    rw [write_prev (hst t), hi, (stages_inv key m t).1]
    unfold mix lastOf
    rw [(stages_inv key m t).1]
  · rw [e0, at_set (by rw [(hst _).len]; norm_num), if_pos rfl]
  · rw [e0, at_set (by rw [(hst _).len]; norm_num), if_neg (by omega)]
    have := (stages_inv key m (m + 623)).2 (s + 623) (by omega) (by omega)
    have e : (s + 623 - 1) % 623 = (s - 1) % 623 := by omega
    rw [if_neg (by omega), e, Nat.add_sub_cancel] at this
    exact this

end MT
end SqPerc
