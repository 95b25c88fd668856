import Verif.Proof.Bounds
import Mathlib.Algebra.BigOperators.Group.Finset.Basic
import Mathlib.Algebra.BigOperators.Intervals
import Mathlib.Algebra.Order.BigOperators.Group.Finset
import Mathlib.Tactic.Ring
import Mathlib.Tactic.LinearCombination
/-
Two closed walks on the periodic lattice that have no site in common wind around it in parallel directions.

The net number of passages of a closed walk through every bond is a flow without sources.  Shifted by half a lattice spacing in both
directions it is crossed only by steps that start or end at a site of the walk.  The crossings therefore have a potential, apart from the constant
part given by the winding, and along a walk that avoids the first one only the constant part counts.
-/
namespace SqPerc

variable {L : Nat} {occ : Nat → Prop}

/-- The sum of the unit mass at one site. -/
theorem sum_unit {e : Nat} (he : e < L * L) :
    ∑ r ∈ Finset.range L, ∑ c ∈ Finset.range L, (if r * L + c = e then (1 : Int) else 0) = 1 := by
  obtain ⟨r0, c0, hr, hc, rfl⟩ := exists_rc he
  rw [Finset.sum_eq_single_of_mem r0 (Finset.mem_range.2 hr), Finset.sum_eq_single_of_mem c0 (Finset.mem_range.2 hc)]
  · simp
  · intro c hc' hne
    rw [if_neg]
    intro h
    exact hne (rc_inj (Finset.mem_range.1 hc') hc h).2
  · intro r _ hne
    refine Finset.sum_eq_zero fun c hc' => ?_
    rw [if_neg]
    intro h
    exact hne (rc_inj (Finset.mem_range.1 hc') hc h).1

/-- The net passages of a walk through the bonds to the right (`H`) and downwards (`V`): they vanish at sites off the walk, they have a source
at the start and a sink at the end, and they add up to the displacement. -/
theorem Walk.flow (hocc : ∀ s, occ s → s < L * L) {s t : Nat} {v : Int × Int} (h : Walk L occ s t v) : ∃ H V : Nat → Int,
    (∀ x < L * L, ¬ occ x → H x = 0 ∧ H (nbr L x .left) = 0 ∧ V x = 0 ∧ V (nbr L x .up) = 0) ∧
    (∀ x < L * L, H x - H (nbr L x .left) + V x - V (nbr L x .up) = (if x = s then 1 else 0) - if x = t then 1 else 0) ∧
    ∑ r ∈ Finset.range L, ∑ c ∈ Finset.range L, H (r * L + c) = v.2 ∧
    ∑ r ∈ Finset.range L, ∑ c ∈ Finset.range L, V (r * L + c) = v.1 := by
  induction h with
  | nil _ => exact ⟨fun _ => 0, fun _ => 0, by simp, by simp, by simp, by simp⟩
  | @snoc t v d w ho ih =>
    obtain ⟨H, V, h1, h2, h3, h4⟩ := ih
    have hto := w.occ_right
    have ht := hocc _ hto
    have hn := hocc _ ho
    have key : ∀ x < L * L, ∀ a : Dir, (nbr L x a.opp = t ↔ x = nbr L t a) := by
      intro x hx a
      constructor
      · rintro rfl
        have := nbr_opp hx a.opp
        rw [Dir.opp_opp] at this
        exact this.symm
      · rintro rfl
        exact nbr_opp ht a
    have key2 : ∀ x < L * L, ∀ a : Dir, (nbr L x a = nbr L t a ↔ x = t) := by
      intro x hx a
      constructor
      · intro e
        rw [← nbr_opp hx a, e, nbr_opp ht a]
      · rintro rfl; rfl
    cases d with
    | right =>
      refine ⟨fun x => H x + if x = t then 1 else 0, V, ?_, ?_, ?_, ?_⟩
      · intro x hx hxo
        obtain ⟨a1, a2, a3, a4⟩ := h1 x hx hxo
        have b1 : x ≠ t := fun e => hxo (e ▸ hto)
        have b2 : nbr L x .left ≠ t := fun e => hxo (((key x hx .right).1 e) ▸ ho)
        simp [a1, a2, a3, a4, b1, b2]
      · intro x hx
        have := h2 x hx
        simp only [key x hx .right, show (Dir.left = Dir.right.opp) from rfl]
        simp only [show (Dir.left = Dir.right.opp) from rfl] at this
        linear_combination this
      · simp only [Finset.sum_add_distrib, h3, sum_unit ht]; simp [Dir.vec]
      · rw [h4]; simp [Dir.vec]
    | left =>
      refine ⟨fun x => H x - if x = nbr L t .left then 1 else 0, V, ?_, ?_, ?_, ?_⟩
      · intro x hx hxo
        obtain ⟨a1, a2, a3, a4⟩ := h1 x hx hxo
        have b1 : x ≠ nbr L t .left := fun e => hxo (e ▸ ho)
        have b2 : nbr L x .left ≠ nbr L t .left := fun e => hxo (((key2 x hx .left).1 e) ▸ hto)
        simp [a1, a2, a3, a4, b1, b2]
      · intro x hx
        have := h2 x hx
        simp only [key2 x hx .left]
        linear_combination this
      · simp only [Finset.sum_sub_distrib, h3, sum_unit hn]; simp [Dir.vec]; ring
      · rw [h4]; simp [Dir.vec]
    | down =>
      refine ⟨H, fun x => V x + if x = t then 1 else 0, ?_, ?_, ?_, ?_⟩
      · intro x hx hxo
        obtain ⟨a1, a2, a3, a4⟩ := h1 x hx hxo
        have b1 : x ≠ t := fun e => hxo (e ▸ hto)
        have b2 : nbr L x .up ≠ t := fun e => hxo (((key x hx .down).1 e) ▸ ho)
        simp [a1, a2, a3, a4, b1, b2]
      · intro x hx
        have := h2 x hx
        simp only [key x hx .down, show (Dir.up = Dir.down.opp) from rfl]
        simp only [show (Dir.up = Dir.down.opp) from rfl] at this
        linear_combination this
      · rw [h3]; simp [Dir.vec]
      · simp only [Finset.sum_add_distrib, h4, sum_unit ht]; simp [Dir.vec]
    | up =>
      refine ⟨H, fun x => V x - if x = nbr L t .up then 1 else 0, ?_, ?_, ?_, ?_⟩
      · intro x hx hxo
        obtain ⟨a1, a2, a3, a4⟩ := h1 x hx hxo
        have b1 : x ≠ nbr L t .up := fun e => hxo (e ▸ ho)
        have b2 : nbr L x .up ≠ nbr L t .up := fun e => hxo (((key2 x hx .up).1 e) ▸ hto)
        simp [a1, a2, a3, a4, b1, b2]
      · intro x hx
        have := h2 x hx
        simp only [key2 x hx .up]
        linear_combination this
      · rw [h3]; simp [Dir.vec]
      · simp only [Finset.sum_sub_distrib, h4, sum_unit hn]; simp [Dir.vec]; ring

/-- A sum over a full circle may start anywhere. -/
theorem sum_rotate (g : Nat → Int) : ∑ c ∈ Finset.range L, g ((c + 1) % L) = ∑ c ∈ Finset.range L, g c := by
  cases L with
  | zero => rfl
  | succ n =>
    rw [Finset.sum_range_succ, Finset.sum_range_succ' g, Nat.mod_self]
    congr 1
    refine Finset.sum_congr rfl fun c hc => ?_
    rw [Nat.mod_eq_of_lt (by have := Finset.mem_range.1 hc; omega)]

theorem sum_rotate_back (g : Nat → Int) : ∑ c ∈ Finset.range L, g ((c + (L - 1)) % L) = ∑ c ∈ Finset.range L, g c := by
  rw [← sum_rotate fun c => g ((c + (L - 1)) % L)]
  refine Finset.sum_congr rfl fun c hc => ?_
  rw [pred_succ_mod (Finset.mem_range.1 hc)]

/-- A rotation-free field of differences on the torus (`fr` to the right, `fd` downwards) is the sum of a constant part and the differences of
a potential; everything multiplied by `L`. -/
theorem exists_potential {fr fd : Nat → Nat → Int}
    (hc : ∀ r < L, ∀ c < L, fr r c + fd r ((c + 1) % L) = fr ((r + 1) % L) c + fd r c) :
    ∃ (f : Nat → Nat → Int) (D E : Int),
      (∀ r < L, ∑ c ∈ Finset.range L, fr r c = D) ∧ (∀ c < L, ∑ r ∈ Finset.range L, fd r c = E) ∧
      (∀ r < L, ∀ c < L, f r ((c + 1) % L) - f r c = L * fr r c - D) ∧
      (∀ r < L, ∀ c < L, f ((r + 1) % L) c - f r c = L * fd r c - E) := by
  have rows : ∀ r < L, ∑ c ∈ Finset.range L, fr r c = ∑ c ∈ Finset.range L, fr 0 c := by
    intro r
    induction r with
    | zero => intro _; rfl
    | succ r ih =>
      intro hr
      rw [← ih (by omega)]
      have : ∑ c ∈ Finset.range L, (fr r c + fd r ((c + 1) % L)) = ∑ c ∈ Finset.range L, (fr (r + 1) c + fd r c) :=
        Finset.sum_congr rfl fun c hc' => by rw [hc r (by omega) c (Finset.mem_range.1 hc'), Nat.mod_eq_of_lt hr]
      rw [Finset.sum_add_distrib, Finset.sum_add_distrib, sum_rotate] at this
      linarith
  have cols : ∀ c < L, ∑ r ∈ Finset.range L, fd r c = ∑ r ∈ Finset.range L, fd r 0 := by
    intro c
    induction c with
    | zero => intro _; rfl
    | succ c ih =>
      intro hc'
      rw [← ih (by omega)]
      have : ∑ r ∈ Finset.range L, (fr r c + fd r (c + 1)) = ∑ r ∈ Finset.range L, (fr ((r + 1) % L) c + fd r c) :=
        Finset.sum_congr rfl fun r hr => by rw [← hc r (Finset.mem_range.1 hr) c (by omega), Nat.mod_eq_of_lt hc']
      rw [Finset.sum_add_distrib, Finset.sum_add_distrib, sum_rotate fun r => fr r c] at this
      linarith
  refine ⟨fun r c => L * (∑ j ∈ Finset.range r, fd j 0 + ∑ i ∈ Finset.range c, fr r i) - (∑ c ∈ Finset.range L, fr 0 c) * c -
    (∑ r ∈ Finset.range L, fd r 0) * r, _, _, rows, cols, ?_, ?_⟩
  · intro r hr c hc'
    rw [succ_mod_cases hc']
    split
    · next e =>
      have h := rows r hr
      rw [← e, Finset.sum_range_succ] at h
      have hL : (L : Int) = c + 1 := by omega
      simp only [Finset.range_zero, Finset.sum_empty, Nat.cast_zero]
      rw [← e, Nat.cast_succ] at *
      linear_combination ((c : Int) + 1) * -h
    · dsimp only
      rw [Finset.sum_range_succ]; push_cast; ring
  · intro r hr c hc'
    have tel : ∑ i ∈ Finset.range c, fr ((r + 1) % L) i - ∑ i ∈ Finset.range c, fr r i = fd r c - fd r 0 := by
      rw [← Finset.sum_sub_distrib, ← Finset.sum_range_sub (fun i => fd r i)]
      refine Finset.sum_congr rfl fun i hi => ?_
      have hi := Finset.mem_range.1 hi
      have := hc r hr i (by omega)
      rw [Nat.mod_eq_of_lt (a := i + 1) (by omega)] at this
      linarith
    rw [succ_mod_cases hr] at tel ⊢
    split at tel
    · next e =>
      rw [if_pos e]
      have h : ∑ r ∈ Finset.range L, fd r 0 = ∑ j ∈ Finset.range r, fd j 0 + fd r 0 := by rw [← e, Finset.sum_range_succ]
      have hL : (L : Int) = r + 1 := by omega
      simp only [Finset.range_zero, Finset.sum_empty, Nat.cast_zero]
      rw [hL]
      linear_combination ((r : Int) + 1) * tel + ((r : Int) + 1) * h
    · next e =>
      rw [if_neg e]
      dsimp only
      rw [Finset.sum_range_succ]
      push_cast
      linear_combination (L : Int) * tel

/-- The function that a closed walk leaves on the corners of the lattice: it grows uniformly except across the walk. -/
theorem Walk.crossing (hocc : ∀ s, occ s → s < L * L) {s : Nat} {v : Int × Int} (h : Walk L occ s s v) : ∃ (F H V : Nat → Int) (D E : Int),
    L * D = v.1 ∧ L * E = -v.2 ∧
    (∀ x < L * L, ¬ occ x → H x = 0 ∧ H (nbr L x .left) = 0 ∧ V x = 0 ∧ V (nbr L x .up) = 0) ∧
    (∀ x < L * L, F (nbr L x .right) - F x = L * V (nbr L x .up) - D) ∧
    (∀ x < L * L, F (nbr L x .down) - F x = -(L * H (nbr L x .left)) - E) := by
  obtain ⟨H, V, f1, f2, f3, f4⟩ := h.flow hocc
  simp only [sub_self] at f2
  obtain ⟨f, D, E, e1, e2, e3, e4⟩ := exists_potential (L := L) (fr := fun r c => V (nbr L (r * L + c) .up)) (fd := fun r c => -H (nbr L (r * L + c) .left)) (by
    intro r hr c hc
    have a1 : nbr L (r * L + (c + 1) % L) .left = r * L + c := by
      rw [nbr_left_rc (succ_mod_lt hc), pred_succ_mod hc]
    have a2 : nbr L ((r + 1) % L * L + c) .up = r * L + c := by
      rw [nbr_up_rc hc, pred_succ_mod hr]
    have := f2 _ (rc_lt hr hc)
    rw [a1, a2]
    linarith)
  have hD : L * D = v.1 := by
    rw [← f4, ← sum_rotate_back fun r => ∑ c ∈ Finset.range L, V (r * L + c)]
    have : ∀ r ∈ Finset.range L, ∑ c ∈ Finset.range L, V ((r + (L - 1)) % L * L + c) = D := by
      intro r hr
      rw [← e1 r (Finset.mem_range.1 hr)]
      exact Finset.sum_congr rfl fun c hc => by rw [nbr_up_rc (Finset.mem_range.1 hc)]
    rw [Finset.sum_congr rfl this]; simp
  have hE : L * E = -v.2 := by
    rw [← f3, Finset.sum_comm, ← sum_rotate_back fun c => ∑ r ∈ Finset.range L, H (r * L + c)]
    have : ∀ c ∈ Finset.range L, ∑ r ∈ Finset.range L, H (r * L + (c + (L - 1)) % L) = -E := by
      intro c hc
      rw [← e2 c (Finset.mem_range.1 hc), ← Finset.sum_neg_distrib]
      exact Finset.sum_congr rfl fun r _ => by rw [nbr_left_rc (Finset.mem_range.1 hc), neg_neg]
    rw [Finset.sum_congr rfl this]; simp
  refine ⟨fun x => f (x / L) (x % L), H, V, D, E, hD, hE, f1, ?_, ?_⟩
  · intro x hx
    obtain ⟨r, c, hr, hc, rfl⟩ := exists_rc hx
    dsimp only
    rw [nbr_right_rc hc, mul_add_div_L (succ_mod_lt hc), mul_add_mod_L (succ_mod_lt hc), mul_add_div_L hc, mul_add_mod_L hc, e3 r hr c hc]
  · intro x hx
    obtain ⟨r, c, hr, hc, rfl⟩ := exists_rc hx
    dsimp only
    rw [nbr_down_rc hc, mul_add_div_L hc, mul_add_mod_L hc, mul_add_div_L hc, mul_add_mod_L hc, e4 r hr c hc]
    ring

/-- Two closed walks without a common site wind in parallel directions. -/
theorem Walk.parallel {occ' : Nat → Prop} (hocc : ∀ s, occ s → s < L * L) (hocc' : ∀ s, occ' s → s < L * L) (hd : ∀ s, occ s → ¬ occ' s)
    {s t : Nat} {v w : Int × Int} (h : Walk L occ s s v) (h' : Walk L occ' t t w) : v.1 * w.2 = v.2 * w.1 := by
  obtain ⟨F, H, V, D, E, hD, hE, f1, fr, fd⟩ := h.crossing hocc
  have along : ∀ {t u : Nat} {w : Int × Int}, Walk L occ' t u w → F u - F t = -D * w.2 - E * w.1 := by
    intro t u w hw
    induction hw with
    | nil _ => simp
    | @snoc u w d hw ho ih =>
      have hu := hocc' _ hw.occ_right
      have hn := hocc' _ ho
      obtain ⟨_, g1, _, g2⟩ := f1 u hu fun h => hd _ h hw.occ_right
      obtain ⟨_, g3, _, g4⟩ := f1 _ hn fun h => hd _ h ho
      cases d with
      | right =>
        have := fr u hu
        rw [g2] at this
        simp only [Dir.vec, Prod.fst_add, Prod.snd_add]
        linear_combination this + ih
      | down =>
        have := fd u hu
        rw [g1] at this
        simp only [Dir.vec, Prod.fst_add, Prod.snd_add]
        linear_combination this + ih
      | left =>
        have := fr _ hn
        rw [g4, show nbr L (nbr L u .left) .right = u from nbr_opp hu .left] at this
        simp only [Dir.vec, Prod.fst_add, Prod.snd_add]
        linear_combination ih - this
      | up =>
        have := fd _ hn
        rw [g3, show nbr L (nbr L u .up) .down = u from nbr_opp hu .up] at this
        simp only [Dir.vec, Prod.fst_add, Prod.snd_add]
        linear_combination ih - this
  have := along h'
  rw [sub_self] at this
  rw [← hD, show v.2 = -(L * E) by linarith]
  linear_combination (L : Int) * this

end SqPerc
