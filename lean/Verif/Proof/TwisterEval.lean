import Verif.Props.Twister
/-
The seeded twister in a form that Lean can evaluate: all words so far are the digits, in base 2 ^ 32, of one natural number, of which only the last 625
digits are kept.
-/
namespace SqPerc
namespace MT

open TwisterSpec

/-- The digit `j` places from the end of `H`. -/
def rd (H j : Nat) : Nat := H / 2 ^ (32 * j) % 2 ^ 32

/-- `k v`, where `v` is evaluated first. -/
def force {β : Type} (v : Nat) (k : Nat → β) : β :=
  match v with
  | 0 => k 0
  | m + 1 => k (m + 1)

theorem force_eq {β : Type} (v : Nat) (k : Nat → β) : force v k = k v := by cases v <;> rfl

/-- Word number `t + 1` from the number `H` made of the words up to `t`: the words 0 to 623 are those of `Start`, the words 624 to 1871 those of `Spreads`,
the others those of the sequence itself. -/
def stepN (key t H : Nat) : Nat :=
  bif Nat.ble (t + 1) 623 then (1812433253 * Nat.xor (rd H 0) (rd H 0 / 2 ^ 30) + (t + 1)) % 2 ^ 32 else
  bif Nat.beq (t + 1) 624 then 19650218 else
  bif Nat.ble (t + 1) 1247 then (Nat.xor (rd H 623) (Nat.xor (rd H 0) (rd H 0 / 2 ^ 30) * 1664525 % 2 ^ 32) + key) % 2 ^ 32 else
  bif Nat.ble (t + 1) 1248 then (Nat.xor (rd H 622) (Nat.xor (rd H 0) (rd H 0 / 2 ^ 30) * 1664525 % 2 ^ 32) + key) % 2 ^ 32 else
  bif Nat.ble (t + 1) 1871 then
    (Nat.xor (rd H 622) (Nat.xor (rd H 0) (rd H 0 / 2 ^ 30) * 1566083941 % 2 ^ 32) + (2 ^ 32 - ((t - 624) % 623 + 1))) % 2 ^ 32 else
  bif Nat.beq (t + 1) 1872 then 2 ^ 31 else
  bif Nat.beq (t + 1) 1873 then rd H 1 else
  bif Nat.ble (t + 1) 2495 then rd H 624 else
  (fun y => Nat.xor (Nat.xor (rd H 226) (y / 2)) (y % 2 * 0x9908b0df)) (rd H 623 / 2 ^ 31 * 2 ^ 31 + rd H 622 % 2 ^ 31)

/-- The number made of the words 0 to `t`. -/
def hist (key : Nat) : Nat → Nat
  | 0 => 19650218
  | t + 1 => hist key t * 2 ^ 32 + stepN key t (hist key t)

/-- The last 625 digits. -/
def cut (H : Nat) : Nat := H % 2 ^ 20000

theorem rd_cut (H : Nat) {j : Nat} (hj : j ≤ 624) : rd (cut H) j = rd H j := by
  unfold rd cut
  rw [show (2 : Nat) ^ 20000 = 2 ^ (32 * j) * 2 ^ (20000 - 32 * j) by rw [← pow_add]; congr 1; omega, Nat.mod_mul_right_div_self,
    Nat.mod_mod_of_dvd _ (Nat.pow_dvd_pow 2 (by omega))]

theorem stepN_cut (key t H : Nat) : stepN key t (cut H) = stepN key t H := by
  unfold stepN
  simp only [rd_cut H (show 0 ≤ 624 by omega), rd_cut H (show 1 ≤ 624 by omega), rd_cut H (show 226 ≤ 624 by omega), rd_cut H (show 622 ≤ 624 by omega),
    rd_cut H (show 623 ≤ 624 by omega), rd_cut H (show 624 ≤ 624 by omega)]

theorem cut_step (H v : Nat) : cut (cut H * 2 ^ 32 + v) = cut (H * 2 ^ 32 + v) := by
  unfold cut
  conv_lhs => rw [Nat.add_mod, Nat.mul_mod, Nat.mod_mod, ← Nat.mul_mod, ← Nat.add_mod]

/-- `n` more words after word `t`; `H` is the number made of the last 625 words. -/
def loopN (key : Nat) : Nat → Nat → Nat → Nat
  | 0, _, H => H
  | n + 1, t, H => force (cut (H * 2 ^ 32 + stepN key t H)) fun H' => force (t + 1) fun t' => loopN key n t' H'

theorem cut_hist (key t : Nat) : cut (cut (hist key t) * 2 ^ 32 + stepN key t (cut (hist key t))) = cut (hist key (t + 1)) := by
  rw [stepN_cut, cut_step, hist]

theorem loopN_hist (key n t : Nat) : loopN key n t (cut (hist key t)) = cut (hist key (t + n)) := by
  induction n generalizing t with
  | zero => rfl
  | succ n ih =>
    rw [loopN, force_eq, force_eq, cut_hist, ih]
    congr 2
    omega

/-- The output transformation for numbers. -/
def temperN (y : Nat) : Nat :=
  force (Nat.xor y (y / 2 ^ 11)) fun a =>
  force (Nat.xor a (Nat.land (a * 2 ^ 7 % 2 ^ 32) 0x9d2c5680)) fun b =>
  force (Nat.xor b (Nat.land (b * 2 ^ 15 % 2 ^ 32) 0xefc60000)) fun c => Nat.xor c (c / 2 ^ 18)

/-- The outputs of the `n` words after word `t`. -/
def outN (key : Nat) : Nat → Nat → Nat → List Nat
  | 0, _, _ => []
  | n + 1, t, H => force (cut (H * 2 ^ 32 + stepN key t H)) fun H' => force (t + 1) fun t' => temperN (rd H' 0) :: outN key n t' H'

theorem outN_hist (key n t : Nat) : outN key n t (cut (hist key t)) = (List.range n).map fun i => temperN (rd (hist key (t + 1 + i)) 0) := by
  induction n generalizing t with
  | zero => rfl
  | succ n ih =>
    rw [outN, force_eq, force_eq, cut_hist, ih, rd_cut _ (by omega), List.range_succ_eq_map, List.map_cons, List.map_map]
    congr 1
    refine List.map_congr_left fun i _ => ?_
    rw [Function.comp, Nat.succ_eq_add_one, Nat.add_right_comm (t + 1) 1 i, Nat.add_assoc (t + 1) i 1]

/-- The first `m` outputs after seeding with a number below 2 ^ 32. -/
def wordsN (key m : Nat) : List Nat := force (loopN key 2495 0 19650218) fun H => outN key m 2495 H

theorem rd_zero {H v : Nat} (hv : v < 2 ^ 32) : rd (H * 2 ^ 32 + v) 0 = v := by
  unfold rd
  omega

theorem rd_succ {H v : Nat} (hv : v < 2 ^ 32) (j : Nat) : rd (H * 2 ^ 32 + v) (j + 1) = rd H j := by
  unfold rd
  rw [show 32 * (j + 1) = 32 + 32 * j by ring, pow_add, ← Nat.div_div_eq_div_mul]
  congr 2
  omega

theorem rd_lt (H j : Nat) : rd H j < 2 ^ 32 := Nat.mod_lt _ (by norm_num)

theorem xor_lt32 {a b : Nat} (ha : a < 2 ^ 32) (hb : b < 2 ^ 32) : Nat.xor a b < 2 ^ 32 := Nat.xor_lt_two_pow ha hb

theorem stepN_lt (key t H : Nat) : stepN key t H < 2 ^ 32 := by
  unfold stepN
  simp only [cond_eq_ite]
  split
  · exact Nat.mod_lt _ (by norm_num)
  split
  · norm_num
  split
  · exact Nat.mod_lt _ (by norm_num)
  split
  · exact Nat.mod_lt _ (by norm_num)
  split
  · exact Nat.mod_lt _ (by norm_num)
  split
  · norm_num
  split
  · exact rd_lt _ _
  split
  · exact rd_lt _ _
  have h1 := rd_lt H 623
  have h2 := rd_lt H 622
  exact xor_lt32 (xor_lt32 (rd_lt _ _) (by omega)) (by omega)

theorem read_hist (key : Nat) {t j : Nat} (h : j ≤ t) : rd (hist key t) j = rd (hist key (t - j)) 0 := by
  induction t generalizing j with
  | zero => rw [show j = 0 by omega]
  | succ t ih =>
    cases j with
    | zero => rfl
    | succ j => rw [hist, rd_succ (stepN_lt _ _ _), ih (by omega), show t + 1 - (j + 1) = t - j by omega]

theorem read_step (key t : Nat) : rd (hist key (t + 1)) 0 = stepN key t (hist key t) := by rw [hist, rd_zero (stepN_lt _ _ _)]

/-- All the words in one row. -/
def row (a u x : Nat → BitVec 32) (s : Nat) : BitVec 32 := if s < 624 then a s else if s < 1872 then u (s - 624) else x (s - 1872)

theorem mix_toNat (w c : BitVec 32) : ((w ^^^ (w >>> 30)) * c).toNat = Nat.xor w.toNat (w.toNat / 2 ^ 30) * c.toNat % 2 ^ 32 := by
  rw [BitVec.toNat_mul, BitVec.toNat_xor, BitVec.toNat_ushiftRight, Nat.shiftRight_eq_div_pow]
  rfl

theorem row_step {a u x : Nat → BitVec 32} {key : BitVec 32} (ha : TwisterSpec.Start a) (hu : Spreads [key] a u) (hx0 : x 0 = 0x80000000#32)
    (hxu : ∀ s, max 624 [key].length < s → s ≤ max 624 [key].length + 623 → x ((s - 1) % 623 + 1) = u s) (hx : Recurs x) (t H : Nat)
    (hH : ∀ j ≤ t, rd H j = (row a u x (t - j)).toNat) : stepN key.toNat t H = (row a u x (t + 1)).toNat := by
  obtain ⟨a0, as⟩ := ha
  obtain ⟨u0, u1, u2⟩ := hu
  have hm : max 624 [key].length = 624 := rfl
  rw [hm] at u1 u2 hxu
  simp only [] at u1 u2
  unfold stepN
  simp only [cond_eq_ite, Nat.ble_eq, Nat.beq_eq]
  split
  · rename_i h
    rw [hH 0 (by omega), Nat.sub_zero, row, row, if_pos (by omega), if_pos (by omega), as, BitVec.toNat_add, BitVec.mul_comm 1812433253#32, mix_toNat,
      BitVec.toNat_ofNat, mul_comm 1812433253]
    simp [Nat.add_mod]
  rename_i h1
  split
  · rename_i h
    rw [row, if_neg (by omega), if_pos (by omega), h, Nat.sub_self, u0, a0]
    rfl
  rename_i h2
  split
  · rename_i h
    have e := u1 (t - 624) (by omega)
    rw [hH 0 (by omega), hH 623 (by omega), Nat.sub_zero]
    unfold row
    rw [if_pos (by omega), if_neg (by omega), if_pos (by omega), if_neg (by omega), if_pos (by omega), show t + 1 - 624 = t - 624 + 1 by omega, e,
      if_pos (by omega), BitVec.toNat_add, BitVec.toNat_add, BitVec.toNat_xor, mix_toNat, show t - 623 = t - 624 + 1 by omega]
    simp [Nat.mod_one]
  rename_i h3
  split
  · rename_i h
    have e := u1 (t - 624) (by omega)
    rw [hH 0 (by omega), hH 622 (by omega), Nat.sub_zero]
    unfold row
    rw [if_neg (by omega), if_pos (by omega), if_neg (by omega), if_pos (by omega), if_neg (by omega), if_pos (by omega),
      show t + 1 - 624 = t - 624 + 1 by omega, e,
      if_neg (by omega), BitVec.toNat_add, BitVec.toNat_add, BitVec.toNat_xor, mix_toNat, show t - 622 - 624 = t - 624 + 1 - 623 by omega]
    simp [Nat.mod_one]
  rename_i h4
  split
  · rename_i h
    have e := u2 (t - 624) (by omega) (by omega)
    have hb : (t - 624) % 623 < 623 := Nat.mod_lt _ (by norm_num)
    rw [hH 0 (by omega), hH 622 (by omega), Nat.sub_zero]
    unfold row
    rw [if_neg (by omega), if_pos (by omega), if_neg (by omega), if_pos (by omega), if_neg (by omega), if_pos (by omega),
      show t + 1 - 624 = t - 624 + 1 by omega, e,
      if_neg (by omega), BitVec.toNat_sub, BitVec.toNat_xor, mix_toNat, show t - 622 - 624 = t - 624 + 1 - 623 by omega, BitVec.toNat_ofNat,
      Nat.mod_eq_of_lt (show (t - 624) % 623 + 1 < 2 ^ 32 by omega), add_comm]
    rfl
  rename_i h5
  split
  · rename_i h
    rw [row, if_neg (by omega), if_neg (by omega), h, Nat.sub_self, hx0]
    rfl
  rename_i h6
  split
  · rename_i h
    have e := hxu 1247 (by omega) (by omega)
    rw [hH 1 (by omega), h]
    unfold row
    rw [if_neg (by omega), if_pos (by omega), if_neg (by omega), if_neg (by omega), show t - 1 - 624 = 1247 by omega, ← e]
  rename_i h7
  split
  · rename_i h
    have e := hxu (t - 1872 + 624) (by omega) (by omega)
    rw [hH 624 (by omega)]
    unfold row
    rw [if_neg (by omega), if_pos (by omega), if_neg (by omega), if_neg (by omega), show t - 624 - 624 = t - 1872 + 624 by omega, ← e,
      show (t - 1872 + 624 - 1) % 623 + 1 = t + 1 - 1872 by omega]
  rename_i h8
  have e := hx (t - 2495)
  simp only at e
  rw [hH 226 (by omega), hH 622 (by omega), hH 623 (by omega)]
  unfold row
  rw [if_neg (by omega), if_neg (by omega), if_neg (by omega), if_neg (by omega), if_neg (by omega), if_neg (by omega), if_neg (by omega), if_neg (by omega),
    show t + 1 - 1872 = t - 2495 + 624 by omega, show t - 226 - 1872 = t - 2495 + 397 by omega, show t - 623 - 1872 = t - 2495 by omega,
    show t - 622 - 1872 = t - 2495 + 1 by omega, e]
  generalize x (t - 2495) = p
  generalize x (t - 2495 + 1) = q
  generalize x (t - 2495 + 397) = r
  have ey : (p &&& 0x80000000#32 ||| q &&& 0x7fffffff#32).toNat = p.toNat / 2 ^ 31 * 2 ^ 31 + q.toNat % 2 ^ 31 := by
    refine Nat.eq_of_testBit_eq fun j => ?_
    rw [mul_comm, Nat.testBit_two_pow_mul_add _ (Nat.mod_lt _ (by norm_num)), BitVec.testBit_toNat, BitVec.getLsbD_or, BitVec.getLsbD_and, BitVec.getLsbD_and,
      ← BitVec.testBit_toNat (0x80000000#32), ← BitVec.testBit_toNat (0x7fffffff#32), show (0x80000000#32).toNat = 2 ^ 31 from rfl,
      show (0x7fffffff#32).toNat = 2 ^ 31 - 1 from rfl, Nat.testBit_two_pow, Nat.testBit_two_pow_sub_one]
    by_cases hj : j < 31
    · rw [if_pos hj, Nat.testBit_mod_two_pow, BitVec.testBit_toNat]
      simp [hj, show ¬ 31 = j by omega]
    · rw [if_neg hj, Nat.testBit_div_two_pow, BitVec.testBit_toNat, show j - 31 + 31 = j by omega]
      by_cases h31 : 31 = j
      · simp [h31]
      · simp [hj, h31, BitVec.getLsbD_of_ge p j (by omega)]
  rw [BitVec.toNat_xor, BitVec.toNat_xor, BitVec.toNat_ushiftRight, Nat.shiftRight_eq_div_pow, ey]
  congr 1
  rcases Nat.mod_two_eq_zero_or_one (p.toNat / 2 ^ 31 * 2 ^ 31 + q.toNat % 2 ^ 31) with h0 | h0 <;> rw [h0] <;> rfl

theorem row_hist {a u x : Nat → BitVec 32} {key : BitVec 32} (ha : TwisterSpec.Start a) (hu : Spreads [key] a u) (hx0 : x 0 = 0x80000000#32)
    (hxu : ∀ s, max 624 [key].length < s → s ≤ max 624 [key].length + 623 → x ((s - 1) % 623 + 1) = u s) (hx : Recurs x) (s : Nat) :
    rd (hist key.toNat s) 0 = (row a u x s).toNat := by
  induction s using Nat.strong_induction_on with
  | _ s ih =>
    cases s with
    | zero =>
      rw [row, if_pos (by norm_num), ha.1]
      show rd 19650218 0 = 19650218
      norm_num [rd]
    | succ t =>
      rw [read_step]
      exact row_step ha hu hx0 hxu hx t _ fun j hj => by rw [read_hist _ hj]; exact ih _ (by omega)

theorem temperN_eq {x z : BitVec 32} (h : Puts x z) : temperN x.toNat = z.toNat := by
  obtain ⟨a, b, c, ea, eb, ec, ez⟩ := h
  have e1 : Nat.xor x.toNat (x.toNat / 2 ^ 11) = a.toNat := by
    rw [ea, BitVec.toNat_xor, BitVec.toNat_ushiftRight, Nat.shiftRight_eq_div_pow]; rfl
  have e2 : Nat.xor a.toNat (Nat.land (a.toNat * 2 ^ 7 % 2 ^ 32) 0x9d2c5680) = b.toNat := by
    rw [eb, BitVec.toNat_xor, BitVec.toNat_and, BitVec.toNat_shiftLeft, Nat.shiftLeft_eq]; rfl
  have e3 : Nat.xor b.toNat (Nat.land (b.toNat * 2 ^ 15 % 2 ^ 32) 0xefc60000) = c.toNat := by
    rw [ec, BitVec.toNat_xor, BitVec.toNat_and, BitVec.toNat_shiftLeft, Nat.shiftLeft_eq]; rfl
  rw [temperN, force_eq, e1, force_eq, e2, force_eq, e3, ez, BitVec.toNat_xor, BitVec.toNat_ushiftRight, Nat.shiftRight_eq_div_pow]
  rfl

theorem key_single {n : Nat} (hn : n < 2 ^ 32) {key : List (BitVec 32)} (h : KeyOf n key) : ∃ k : BitVec 32, key = [k] ∧ k.toNat = n := by
  obtain ⟨h1, h2, h3⟩ := h
  match key, h1 with
  | [k], _ => exact ⟨k, rfl, by simpa using h2⟩
  | k :: l :: r, _ =>
    exfalso
    have h3 := h3 (by simp)
    apply h3
    have hz : ∀ r : List (BitVec 32), Nat.ofDigits (2 ^ 32) (r.map BitVec.toNat) = 0 → r ≠ [] → r.getLast? = some 0 := by
      intro r
      induction r with
      | nil => intro _ h; exact absurd rfl h
      | cons d r ih =>
        intro h _
        rw [List.map_cons, Nat.ofDigits_cons] at h
        have hd : d.toNat = 0 := by simpa using (Nat.add_eq_zero_iff.1 h).1
        have hr : Nat.ofDigits (2 ^ 32) (r.map BitVec.toNat) = 0 := by
          have := (Nat.add_eq_zero_iff.1 h).2
          simpa using this
        cases r with
        | nil => rw [List.getLast?_singleton]; congr 1; exact BitVec.eq_of_toNat_eq hd
        | cons e r => rw [List.getLast?_cons_cons]; exact ih hr (by simp)
    rw [List.getLast?_cons_cons]
    refine hz (l :: r) ?_ (by simp)
    rw [List.map_cons, Nat.ofDigits_cons] at h2
    by_contra hne
    have : 2 ^ 32 * 1 ≤ 2 ^ 32 * Nat.ofDigits (2 ^ 32) ((l :: r).map BitVec.toNat) := Nat.mul_le_mul_left _ (Nat.one_le_iff_ne_zero.2 hne)
    omega

/-- The words after seeding with `key`, by evaluation. -/
theorem wordsN_eq {key : Nat} (hk : key < 2 ^ 32) (m : Nat) : wordsN key m = (List.range m).map fun i => (pyRng.seed key i).1 := by
  obtain ⟨ks, x, h1, ⟨a, u, ha, hu, hx0, hxu⟩, hx, hz⟩ := C110_seed (key : Int)
  rw [Int.natAbs_natCast] at h1
  obtain ⟨k, rfl, rfl⟩ := key_single hk h1
  have h0 : cut (hist k.toNat 0) = 19650218 := by rw [hist]; decide +kernel
  rw [wordsN, force_eq, ← h0, loopN_hist, Nat.zero_add, outN_hist]
  refine List.map_congr_left fun i _ => ?_
  rw [row_hist ha hu hx0 hxu hx, row, if_neg (by omega), if_neg (by omega), show 2495 + 1 + i - 1872 = 624 + i by omega, temperN_eq (hz i)]
  rfl

attribute [irreducible] wordsN

end MT
end SqPerc
