import Verif.Proof.Lift
/-
Full rows and columns wrap.
-/
namespace SqPerc

variable {L : Nat} {occ : Nat → Prop}

theorem rc_lt {r c : Nat} (hr : r < L) (hc : c < L) : r * L + c < L * L := by
  have := Nat.mul_le_mul_right L (Nat.succ_le_of_lt hr)
  rw [Nat.succ_mul] at this
  omega

/-- The closed walk along a full row. -/
theorem row_walk {r : Nat} (hL : 0 < L) (h : ∀ c < L, occ (r * L + c)) : Walk L occ (r * L) (r * L) (0, (L : Int)) := by
  have key : ∀ c, c < L → Walk L occ (r * L) (r * L + c) (0, (c : Int)) := by
    intro c
    induction c with
    | zero => intro hc; exact .nil (h 0 hc)
    | succ c ih =>
      intro hc
      have e : nbr L (r * L + c) .right = r * L + (c + 1) := by
        rw [nbr_right_rc (by omega), Nat.mod_eq_of_lt hc]
      have := Walk.snoc .right (ih (by omega)) (by rw [e]; exact h _ hc)
      rw [e] at this
      have ev : ((0, (c : Int)) + Dir.right.vec : Int × Int) = (0, ((c + 1 : Nat) : Int)) := by
        simp [Dir.vec]
      rwa [ev] at this
  have e : nbr L (r * L + (L - 1)) .right = r * L := by
    rw [nbr_right_rc (by omega), Nat.sub_add_cancel hL, Nat.mod_self, Nat.add_zero]
  have := Walk.snoc .right (key (L - 1) (by omega)) (by rw [e]; exact h 0 hL)
  rw [e] at this
  have ev : ((0, ((L - 1 : Nat) : Int)) + Dir.right.vec : Int × Int) = (0, (L : Int)) := by
    simp [Dir.vec]; omega
  rwa [ev] at this

/-- A full row wraps. -/
theorem row_wraps {r : Nat} (hL : 0 < L) (h : ∀ c < L, occ (r * L + c)) : WrapsAt L occ (r * L) :=
  ⟨_, fun h0 => by have := congrArg Prod.snd h0; simp at this; omega, row_walk hL h⟩

/-- The closed walk along a full column. -/
theorem col_walk {c : Nat} (hL : 0 < L) (hc : c < L) (h : ∀ r < L, occ (r * L + c)) : Walk L occ c c ((L : Int), 0) := by
  have key : ∀ r, r < L → Walk L occ c (r * L + c) ((r : Int), 0) := by
    intro r
    induction r with
    | zero => intro hr; have := h 0 hr; rw [Nat.zero_mul, Nat.zero_add] at this ⊢; exact .nil this
    | succ r ih =>
      intro hr
      have e : nbr L (r * L + c) .down = (r + 1) * L + c := by
        rw [nbr_down_rc hc, Nat.mod_eq_of_lt hr]
      have := Walk.snoc .down (ih (by omega)) (by rw [e]; exact h _ hr)
      rw [e] at this
      have ev : (((r : Int), 0) + Dir.down.vec : Int × Int) = (((r + 1 : Nat) : Int), 0) := by
        simp [Dir.vec]
      rwa [ev] at this
  have e : nbr L ((L - 1) * L + c) .down = c := by
    rw [nbr_down_rc hc, Nat.sub_add_cancel hL, Nat.mod_self, Nat.zero_mul, Nat.zero_add]
  have h0 := h 0 hL
  rw [Nat.zero_mul, Nat.zero_add] at h0
  have := Walk.snoc .down (key (L - 1) (by omega)) (by rw [e]; exact h0)
  rw [e] at this
  have ev : ((((L - 1 : Nat) : Int), 0) + Dir.down.vec : Int × Int) = ((L : Int), 0) := by
    simp [Dir.vec]; omega
  rwa [ev] at this

/-- A full column wraps. -/
theorem col_wraps {c : Nat} (hL : 0 < L) (hc : c < L) (h : ∀ r < L, occ (r * L + c)) : WrapsAt L occ c :=
  ⟨_, fun h0 => by have := congrArg Prod.fst h0; simp at this; omega, col_walk hL hc h⟩

end SqPerc
