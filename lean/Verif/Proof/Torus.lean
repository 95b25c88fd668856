import Verif.Spec.Torus
import Mathlib.Tactic.Ring
import Mathlib.Tactic.Linarith
/-
Arithmetic of the periodic lattice.
-/
namespace SqPerc

theorem mul_add_div_L {L r c : Nat} (hc : c < L) : (r * L + c) / L = r := by
  have hL : 0 < L := by omega
  rw [Nat.mul_comm, Nat.mul_add_div hL, Nat.div_eq_of_lt hc, Nat.add_zero]

theorem mul_add_mod_L {L r c : Nat} (hc : c < L) : (r * L + c) % L = c := by
  rw [Nat.mul_comm, Nat.mul_add_mod, Nat.mod_eq_of_lt hc]

theorem mul_add_lt {L r c : Nat} (hr : r < L) (hc : c < L) : r * L + c < L * L := by
  have : (r + 1) * L ≤ L * L := Nat.mul_le_mul_right L hr
  have h2 : (r + 1) * L = r * L + L := by ring
  omega

theorem pos_of_lt_sq {L s : Nat} (hs : s < L * L) : 0 < L := by
  rcases Nat.eq_zero_or_pos L with h | h
  · subst h; simp at hs
  · exact h

theorem exists_rc {L s : Nat} (hs : s < L * L) : ∃ r c, r < L ∧ c < L ∧ s = r * L + c :=
  ⟨s / L, s % L, Nat.div_lt_of_lt_mul hs, Nat.mod_lt _ (pos_of_lt_sq hs), (Nat.div_add_mod' s L).symm⟩

theorem rc_inj {L r c r' c' : Nat} (hc : c < L) (hc' : c' < L) (h : r * L + c = r' * L + c') : r = r' ∧ c = c' := by
  have h1 : (r * L + c) / L = (r' * L + c') / L := by rw [h]
  have h2 : (r * L + c) % L = (r' * L + c') % L := by rw [h]
  rw [mul_add_div_L hc, mul_add_div_L hc'] at h1
  rw [mul_add_mod_L hc, mul_add_mod_L hc'] at h2
  exact ⟨h1, h2⟩

section
variable {L r c : Nat}

theorem nbr_right_rc (hc : c < L) : nbr L (r * L + c) .right = r * L + (c + 1) % L := by
  simp [nbr, mul_add_div_L hc, mul_add_mod_L hc]
theorem nbr_left_rc (hc : c < L) : nbr L (r * L + c) .left = r * L + (c + (L - 1)) % L := by
  simp [nbr, mul_add_div_L hc, mul_add_mod_L hc]
theorem nbr_down_rc (hc : c < L) : nbr L (r * L + c) .down = (r + 1) % L * L + c := by
  simp [nbr, mul_add_div_L hc, mul_add_mod_L hc]
theorem nbr_up_rc (hc : c < L) : nbr L (r * L + c) .up = (r + (L - 1)) % L * L + c := by
  simp [nbr, mul_add_div_L hc, mul_add_mod_L hc]

end

/-- Next index modulo `L`, by cases. -/
theorem succ_mod_cases {L c : Nat} (hc : c < L) : (c + 1) % L = if c + 1 = L then 0 else c + 1 := by
  split
  · next h => rw [h, Nat.mod_self]
  · next h => exact Nat.mod_eq_of_lt (by omega)

/-- Previous index modulo `L`, by cases. -/
theorem pred_mod_cases {L c : Nat} (hc : c < L) : (c + (L - 1)) % L = if c = 0 then L - 1 else c - 1 := by
  split
  · next h => subst h; rw [Nat.zero_add]; exact Nat.mod_eq_of_lt (by omega)
  · next h =>
    have : c + (L - 1) = (c - 1) + L := by omega
    rw [this, Nat.add_mod_right]; exact Nat.mod_eq_of_lt (by omega)

theorem succ_mod_lt {L c : Nat} (hc : c < L) : (c + 1) % L < L := Nat.mod_lt _ (by omega)
theorem pred_mod_lt {L c : Nat} (hc : c < L) : (c + (L - 1)) % L < L := Nat.mod_lt _ (by omega)

theorem succ_pred_mod {L c : Nat} (hc : c < L) : ((c + (L - 1)) % L + 1) % L = c := by
  rw [succ_mod_cases (pred_mod_lt hc), pred_mod_cases hc]
  split <;> split at * <;> omega

theorem pred_succ_mod {L c : Nat} (hc : c < L) : ((c + 1) % L + (L - 1)) % L = c := by
  rw [pred_mod_cases (succ_mod_lt hc), succ_mod_cases hc]
  split <;> split at * <;> omega

theorem nbr_lt {L s : Nat} (hs : s < L * L) (d : Dir) : nbr L s d < L * L := by
  obtain ⟨r, c, hr, hc, rfl⟩ := exists_rc hs
  cases d
  · rw [nbr_right_rc hc]; exact mul_add_lt hr (succ_mod_lt hc)
  · rw [nbr_down_rc hc]; exact mul_add_lt (succ_mod_lt hr) hc
  · rw [nbr_left_rc hc]; exact mul_add_lt hr (pred_mod_lt hc)
  · rw [nbr_up_rc hc]; exact mul_add_lt (pred_mod_lt hr) hc

theorem nbr_opp {L s : Nat} (hs : s < L * L) (d : Dir) : nbr L (nbr L s d) d.opp = s := by
  obtain ⟨r, c, hr, hc, rfl⟩ := exists_rc hs
  cases d
  · rw [nbr_right_rc hc, Dir.opp, nbr_left_rc (succ_mod_lt hc), pred_succ_mod hc]
  · rw [nbr_down_rc hc, Dir.opp, nbr_up_rc hc, pred_succ_mod hr]
  · rw [nbr_left_rc hc, Dir.opp, nbr_right_rc (pred_mod_lt hc), succ_pred_mod hc]
  · rw [nbr_up_rc hc, Dir.opp, nbr_down_rc hc, succ_pred_mod hr]

theorem Dir.opp_opp (d : Dir) : d.opp.opp = d := by cases d <;> rfl
theorem Dir.vec_opp (d : Dir) : d.opp.vec = -d.vec := by cases d <;> rfl

theorem bondAt_lt {L s : Nat} (hs : s < L * L) (d : Dir) : bondAt L s d < 2 * (L * L) := by
  have := nbr_lt hs d
  cases d <;> simp only [bondAt] <;> omega

/-- The ends of the bond of `s` in direction `d` are `s` and its neighbour. -/
theorem bondEnds_bondAt {L s : Nat} (hs : s < L * L) (d : Dir) :
    bondEnds L (bondAt L s d) = (s, nbr L s d) ∨ bondEnds L (bondAt L s d) = (nbr L s d, s) := by
  have h := nbr_lt hs d
  have ho := nbr_opp hs d
  cases d
  · left; simp [bondEnds, bondAt, hs]
  · left; simp [bondEnds, bondAt]
  · right; simp only [bondEnds, bondAt, h, if_true]; rw [show nbr L (nbr L s .left) .right = s from ho]
  · right
    have : ¬ (L * L + nbr L s .up < L * L) := by omega
    simp only [bondEnds, bondAt, this, if_false, Nat.add_sub_cancel_left]
    rw [show nbr L (nbr L s .up) .down = s from ho]

theorem bondEnds_lt {L b : Nat} (hb : b < 2 * (L * L)) : (bondEnds L b).1 < L * L ∧ (bondEnds L b).2 < L * L := by
  unfold bondEnds
  split
  · next h => exact ⟨h, nbr_lt h .right⟩
  · next h =>
    have hb' : b - L * L < L * L := by omega
    exact ⟨hb', nbr_lt hb' .down⟩

/-- A bond and one of its ends: the bond is the bond of that site in some direction. -/
theorem incident_iff {L s b : Nat} (hb : b < 2 * (L * L)) :
    Incident L s b ↔ s < L * L ∧ ∃ d, b = bondAt L s d := by
  constructor
  · intro h
    have hl := bondEnds_lt hb
    refine ⟨by rcases h with h | h <;> omega, ?_⟩
    by_cases hbl : b < L * L
    · rcases h with h | h
      · simp [bondEnds, hbl] at h; exact ⟨.right, by simp [bondAt, h]⟩
      · simp [bondEnds, hbl] at h
        refine ⟨.left, ?_⟩
        rw [h]; simp only [bondAt]
        exact (nbr_opp hbl .right).symm
    · rcases h with h | h
      · simp [bondEnds, hbl] at h; exact ⟨.down, by simp only [bondAt]; omega⟩
      · simp [bondEnds, hbl] at h
        refine ⟨.up, ?_⟩
        rw [h]; simp only [bondAt]
        have hb' : b - L * L < L * L := by omega
        have := nbr_opp hb' .down
        simp only [Dir.opp] at this
        omega
  · rintro ⟨hs, d, rfl⟩
    rcases bondEnds_bondAt hs d with h | h <;> simp [Incident, h]

theorem incident_bondAt {L s : Nat} (hs : s < L * L) (d : Dir) : Incident L s (bondAt L s d) :=
  (incident_iff (bondAt_lt hs d)).2 ⟨hs, d, rfl⟩

theorem bondAt_nbr_opp {L s : Nat} (hs : s < L * L) (d : Dir) : bondAt L (nbr L s d) d.opp = bondAt L s d := by
  have ho := nbr_opp hs d
  cases d <;> simp only [bondAt, Dir.opp] at * <;> omega

theorem incident_nbr {L s : Nat} (hs : s < L * L) (d : Dir) : Incident L (nbr L s d) (bondAt L s d) := by
  rw [← bondAt_nbr_opp hs d]; exact incident_bondAt (nbr_lt hs d) _

theorem incident_lt {L s b : Nat} (hb : b < 2 * (L * L)) (h : Incident L s b) : s < L * L := ((incident_iff hb).1 h).1

/-- For `L ≥ 2` a neighbour is a different site. -/
theorem nbr_ne {L s : Nat} (hL : 2 ≤ L) (hs : s < L * L) (d : Dir) : nbr L s d ≠ s := by
  obtain ⟨r, c, hr, hc, rfl⟩ := exists_rc hs
  intro h
  cases d
  · rw [nbr_right_rc hc] at h
    have := (rc_inj (succ_mod_lt hc) hc h).2
    rw [succ_mod_cases hc] at this; split at this <;> omega
  · rw [nbr_down_rc hc] at h
    have := (rc_inj hc hc h).1
    rw [succ_mod_cases hr] at this; split at this <;> omega
  · rw [nbr_left_rc hc] at h
    have := (rc_inj (pred_mod_lt hc) hc h).2
    rw [pred_mod_cases hc] at this; split at this <;> omega
  · rw [nbr_up_rc hc] at h
    have := (rc_inj hc hc h).1
    rw [pred_mod_cases hr] at this; split at this <;> omega

theorem bondAt_left_ne_right {L s : Nat} (hL : 2 ≤ L) (hs : s < L * L) : nbr L s .left ≠ s := nbr_ne hL hs .left

/-- For `L ≥ 2` the four bonds of a site are distinct. -/
theorem bondAt_inj {L s : Nat} (hL : 2 ≤ L) (hs : s < L * L) {d d' : Dir} (h : bondAt L s d = bondAt L s d') : d = d' := by
  have h1 := nbr_ne hL hs .left
  have h2 := nbr_ne hL hs .up
  have h3 := nbr_lt hs .left
  have h4 := nbr_lt hs .up
  cases d <;> cases d' <;> simp only [bondAt] at h <;> first | rfl | (exfalso; omega)

end SqPerc
