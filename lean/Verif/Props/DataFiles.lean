import Verif.Model.DataFiles
import Verif.Proof.LogTable
import Verif.Props.Repr
import Verif.Props.SeedsTable
/-
C114: the data files of data_pytest.
-/
namespace SqPerc

variable {so : SetOrder} {L : Nat} {lg : Dbl → Dbl}

/-- What a data file should contain: an order of all sites, its critical values, and for every number of placed sites the order parameters and, to within
`2·10⁻¹³`, the entropy. -/
structure TrueData (L : Nat) (D : DataFile) : Prop where
  perm : D.order.Perm (List.range (L * L))
  crit : CritOf L D.order ⟨(D.pc : ℝ) / 10 ^ 4, D.sites, D.bonds⟩
  largest : D.largest.length = L * L ∧ ∀ i n : Nat, D.largest[i]? = some n →
    (n : ℝ) / 10 ^ 4 = (seqLargest L (D.order.take (i + 1)) : ℝ) / (2 * (L * L) : Nat)
  wrapping : D.wrapping.length = L * L ∧ ∀ i n : Nat, D.wrapping[i]? = some n →
    (n : ℝ) / 10 ^ 4 = (seqWrapping L (D.order.take (i + 1)) : ℝ) / (2 * (L * L) : Nat)
  entropy : D.entropies.length = L * L ∧ ∀ (i : Nat) (z : Int), D.entropies[i]? = some z →
    |shannon L (· ∈ D.order.take (i + 1)) - (z : ℝ) / 10 ^ 32| ≤ 2 / 10 ^ 13

/-! ### Reading decimals -/

theorem Dbl.ofNat_fin {n : Nat} (h : n ≤ 2 ^ 53) : ∃ hd, Dbl.ofNat n = .fin n hd := by
  unfold Dbl.ofNat Dbl.round
  rw [Dbl.nearest_nat h]
  split
  · next h0 =>
    rw [h0]
    exact ⟨Dbl.zero_isDbl, rfl⟩
  · rw [dif_pos (Dbl.isDbl_nat h)]
    exact ⟨Dbl.isDbl_nat h, rfl⟩

/-- A quotient of two integers is the float that is read from a decimal with the same value. -/
theorem div_decimal {s n l k : Nat} (hn : 0 < n) (hs : s ≤ n) (hn' : n ≤ 2 ^ 53) (h : (l : ℝ) / 10 ^ k = (s : ℝ) / n) :
    (Dbl.ofNat s).div (Dbl.ofNat n) = decimal k l := by
  obtain ⟨h1, e1⟩ := Dbl.ofNat_fin (hs.trans hn')
  obtain ⟨h2, e2⟩ := Dbl.ofNat_fin hn'
  have hnr : (n : ℝ) ≠ 0 := by exact_mod_cast hn.ne'
  rw [e1, e2]
  show (if (n : ℝ) = 0 then Dbl.nan else Dbl.round (decide ((s : ℝ) < 0) ^^ decide ((n : ℝ) < 0)) ((s : ℝ) / n)) = _
  have n1 : ¬ (s : ℝ) < 0 := not_lt.2 (Nat.cast_nonneg s)
  have n2 : ¬ (n : ℝ) < 0 := not_lt.2 (Nat.cast_nonneg n)
  have n3 : ¬ ((l : Nat) : Int) < 0 := by omega
  rw [if_neg hnr, decide_eq_false n1, decide_eq_false n2, decimal, decide_eq_false n3, ← h]
  rfl

theorem decimal_val {k : Nat} {z : Int} (h : |(z : ℝ) / 10 ^ k| ≤ 2 ^ 10) :
    (decimal k z).Finite ∧ |(decimal k z).val - (z : ℝ) / 10 ^ k| ≤ 1 / 10 ^ 12 := by
  have hb : |(z : ℝ) / 10 ^ k| ≤ Dbl.big := by
    obtain ⟨h1, h2⟩ := Dbl.ofNat_val (n := 2 ^ 10) (by norm_num)
    refine h.trans ?_
    have h3 : (2 : ℝ) ^ (971 : ℤ) = 2 ^ (970 : ℤ) * 2 := zpow_add_one₀ (by norm_num) 970
    have h4 : (1 : ℝ) ≤ 2 ^ (970 : ℤ) := one_le_zpow₀ (by norm_num) (by norm_num)
    rw [Dbl.big, h3]
    generalize (2 : ℝ) ^ (970 : ℤ) = b at h4
    have h5 : (2 : ℝ) ^ 10 ≤ (2 ^ 53 - 1) * 2 := by norm_num
    have h6 : (1 : ℝ) ≤ 2 ^ 53 - 1 := by norm_num
    nlinarith
  obtain ⟨h1, h2⟩ := Dbl.round_val (decide (z < 0)) hb
  refine ⟨h1, ?_⟩
  rw [show (decimal k z).val = _ from h2]
  have ht : Dbl.tiny ≤ 2 ^ 10 := by
    unfold Dbl.tiny
    exact (zpow_le_one_of_nonpos₀ (by norm_num) (by norm_num)).trans (by norm_num)
  refine (Dbl.nearest_err _).trans ((mul_le_mul_of_nonneg_left (max_le h ht) (by positivity)).trans ?_)
  norm_num

/-- What `float(…)` reads is `decimal`: two numbers of the files. -/
example : Dbl.ofText "0.52".toList = some (decimal 4 5200) := by
  have h : readNumber "0.52".toList = some (13 / 25) := by decide +kernel
  show (readNumber "0.52".toList).map (fun q : ℚ => Dbl.round false (q : ℝ)) = _
  rw [h, Option.map_some, decimal, decide_eq_false (by norm_num)]
  norm_num

example : Dbl.ofText "-1.2073675392798577e-15".toList = some (decimal 32 (-120736753927985770)) := by
  have h : readNumber "1.2073675392798577e-15".toList = some (12073675392798577 / 10 ^ 31) := by decide +kernel
  show (readNumber "1.2073675392798577e-15".toList).map (fun q : ℚ => Dbl.round true (-(q : ℝ))) = _
  rw [h, Option.map_some, decimal, decide_eq_true (by norm_num)]
  norm_num

/-! ### The replay -/

theorem log_le_ten {n : Nat} (h : n ≤ 20000) : Real.log n ≤ 10 := by
  rcases Nat.eq_zero_or_pos n with rfl | h0
  · simp
  have hn : (0 : ℝ) < n := by exact_mod_cast h0
  rw [Real.log_le_iff_le_exp hn]
  have h1 : (2.7 : ℝ) ≤ Real.exp 1 := by linarith [Real.exp_one_gt_d9]
  have h2 : Real.exp 10 = Real.exp 1 ^ 10 := by rw [← Real.exp_nat_mul]; norm_num
  have h3 : (n : ℝ) ≤ 20000 := by exact_mod_cast h
  rw [h2]
  exact h3.trans (le_trans (by norm_num) (pow_le_pow_left₀ (by norm_num) h1 10))

/-- C114: if a file contains the true data of its order, test_data_json.py:38-56 computes from it, with any set order and any good logarithm, the recorded
threshold, counts and order parameters bit for bit, and entropies that differ from the recorded ones by at most `10⁻⁹`. -/
theorem C114_replay (hL : 3 ≤ L) (hL' : L ≤ 100) {D : DataFile} (H : TrueData L D) (hlg : Dbl.GoodLog lg (2⁻¹ ^ 52)) (ctor draws : Nat → Nat) {fuel : Nat}
    (hfuel : L * L < fuel) (ds : Nat → Draw) : ∃ g, crossReplay ⟨so, Dbl.arith lg⟩ L ctor draws (D.values L) fuel ds = .ok g ∧
    g.pc = (D.values L).pc ∧ g.siteCount = D.sites ∧ g.bondCount = D.bonds ∧ g.orderLargestList = (D.values L).orderLargestList ∧
    g.orderWrappingList = (D.values L).orderWrappingList ∧ g.entropyList.length = (D.values L).entropyList.length ∧
    ∀ (i : Nat) (x y : Dbl), (D.values L).entropyList[i]? = some x → g.entropyList[i]? = some y → x.Finite ∧ y.Finite ∧ |x.val - y.val| ≤ 1 / 10 ^ 9 := by
  have hL0 : 0 < L := by omega
  have hLL : L * L ≤ 100 * 100 := Nat.mul_le_mul hL' hL'
  have hLp : 0 < L * L := Nat.mul_pos hL0 hL0
  have hlen : D.order.length = L * L := by rw [H.perm.length_eq, List.length_range]
  have hnd : D.order.Nodup := H.perm.nodup_iff.2 List.nodup_range
  have hlt : ∀ s ∈ D.order, s < L * L := fun s hs => List.mem_range.1 (H.perm.mem_iff.1 hs)
  have R0 := Dbl.rounded half_le hlg
  have R : Rounded (Dbl.arith lg) Dbl.val Dbl.Finite (2⁻¹ ^ 52) Dbl.tiny Dbl.big (2 * (L * L)) :=
    { R0 with ofNat := fun n hn => R0.ofNat n (hn.trans (by omega)) }
  obtain ⟨N, h1, h2, ⟨es, h3, h3', _⟩, h4, h5, h6⟩ := replay_rel ⟨so, Dbl.arith lg⟩ hL0 (f := D.values L) H.perm
    (by rw [List.map_map]; rfl) ctor draws hfuel ds
  have h7 := h6 (fun x q => x.Finite ∧ |x.val - shannon L (· ∈ q)| ≤ 20 * 2⁻¹ ^ 52 * (Real.log (2 * (L * L) : Nat) + 1) * (q.length + 1))
    fun T q hT => hT.drift (fits_ieee hL0 (hL'.trans (by norm_num))) R
  have bnd : ∀ i, 0 ≤ shannon L (· ∈ D.order.take (i + 1)) ∧ shannon L (· ∈ D.order.take (i + 1)) ≤ Real.log (2 * (L * L) : Nat) ∧
      seqWrapping L (D.order.take (i + 1)) ≤ 2 * (L * L) ∧ seqLargest L (D.order.take (i + 1)) ≤ 2 * (L * L) := by
    intro i
    obtain ⟨a, b, c, d, _⟩ := order_bounds hL0 (hnd.sublist (List.take_sublist (i + 1) _)) fun s hs => hlt s (List.mem_of_mem_take hs)
    exact ⟨a, b, c.trans d, d⟩
  have hst : ∀ i, (stages [] D.order)[i]? = if i < L * L then some (D.order.take (i + 1)) else none := by
    intro i
    rw [stages_getElem?, hlen]
    rfl
  refine ⟨_, h1, ?_⟩
  obtain ⟨pre, k, post, c1, c2, c3, c4, c5, c6⟩ := (C21_critical_values hL h2).1 (full_wraps hL0 fun s hs => H.perm.mem_iff.2 (List.mem_range.2 hs))
  have hc : CritOf L D.order ⟨((pre.length + 1 : Nat) : ℝ) / (L * L : Nat), N.getSiteCountPc, N.getBondCountPc⟩ := by
    rw [CritOf, if_pos hL]
    exact ⟨pre, k, post, c1, c2, ⟨k, c3⟩, rfl, c5, c6 _⟩
  have hu := H.crit.unique hc
  obtain ⟨u1, u2, u3⟩ := CritRow.mk.inj hu
  have hpre : pre.length + 1 ≤ L * L := by
    have := congrArg List.length c1
    rw [hlen, List.length_append, List.length_cons] at this
    omega
  refine ⟨?_, u2.symm, u3.symm, ?_, ?_, ?_, ?_⟩
  · show N.getPc _ = decimal 4 D.pc
    rw [c4]
    exact div_decimal hLp hpre (by omega) u1
  · show N.orderLargestList = D.largest.map fun n : Nat => decimal 4 n
    rw [h5]
    apply List.ext_getElem?
    intro i
    rw [List.getElem?_map, List.getElem?_map, hst]
    split
    · next hi =>
      obtain ⟨n, hn⟩ : ∃ n, D.largest[i]? = some n := ⟨_, List.getElem?_eq_getElem (by rw [H.largest.1]; exact hi)⟩
      rw [hn, Option.map_some, Option.map_some]
      exact congrArg some (div_decimal (by omega) (bnd i).2.2.2 (by omega) (H.largest.2 i n hn))
    · next hi => rw [List.getElem?_eq_none (by rw [H.largest.1]; omega)]; rfl
  · show N.orderWrapList = D.wrapping.map fun n : Nat => decimal 4 n
    rw [h4]
    apply List.ext_getElem?
    intro i
    rw [List.getElem?_map, List.getElem?_map, hst]
    split
    · next hi =>
      obtain ⟨n, hn⟩ : ∃ n, D.wrapping[i]? = some n := ⟨_, List.getElem?_eq_getElem (by rw [H.wrapping.1]; exact hi)⟩
      have hv := H.wrapping.2 i n hn
      rw [hn, Option.map_some, Option.map_some]
      refine congrArg some ?_
      unfold ordW
      split
      · exact div_decimal (by omega) (bnd i).2.2.1 (by omega) hv
      · next h =>
        have h0 : seqWrapping L (D.order.take (i + 1)) = 0 := by
          unfold seqWrapping
          split
          · rfl
          · rw [firstWrap_none (by rw [List.nil_append]; exact fun hw => h ⟨by omega, hw⟩)]
        have h0' : n = 0 := by
          rw [h0, Nat.cast_zero, zero_div] at hv
          have : (n : ℝ) = 0 := by
            rcases div_eq_zero_iff.1 hv with h | h
            · exact h
            · norm_num at h
          exact_mod_cast this
        rw [h0', decimal]
        show Dbl.round false ((0 : Nat) : ℝ) = _
        norm_num
    · next hi => rw [List.getElem?_eq_none (by rw [H.wrapping.1]; omega)]; rfl
  · show N.entropyList.length = (D.entropies.map (decimal 32)).length
    rw [h3, h3', List.length_map, H.entropy.1]
  · intro i x y hx hy
    replace hx : (D.entropies.map (decimal 32))[i]? = some x := hx
    replace hy : N.entropyList[i]? = some y := hy
    rw [List.getElem?_map] at hx
    obtain ⟨z, hz, rfl⟩ := Option.map_eq_some_iff.1 hx
    have hi : i < L * L := by
      rw [← H.entropy.1]
      exact (List.getElem?_eq_some_iff.1 hz).1
    have hs := H.entropy.2 i z hz
    obtain ⟨b1, b2, _⟩ := bnd i
    have hlog : Real.log (2 * (L * L) : Nat) ≤ 10 := log_le_ten (by omega)
    obtain ⟨f1, f2⟩ : y.Finite ∧ |y.val - shannon L (· ∈ D.order.take (i + 1))| ≤
        20 * 2⁻¹ ^ 52 * (Real.log (2 * (L * L) : Nat) + 1) * ((D.order.take (i + 1)).length + 1) := by
      have hq : (stages [] D.order)[i]? = some (D.order.take (i + 1)) := by rw [hst, if_pos hi]
      obtain ⟨i1, e1⟩ := List.getElem?_eq_some_iff.1 hy
      obtain ⟨i2, e2⟩ := List.getElem?_eq_some_iff.1 hq
      have := (List.forall₂_iff_get.1 h7).2 i i1 i2
      rw [List.get_eq_getElem, List.get_eq_getElem] at this
      simp only [e1, e2] at this
      exact this
    have f3 : 20 * (2⁻¹ : ℝ) ^ 52 * (Real.log (2 * (L * L) : Nat) + 1) * ((D.order.take (i + 1)).length + 1) ≤ 6 / 10 ^ 10 := by
      have g1 : ((D.order.take (i + 1)).length : ℝ) ≤ 10000 := by
        have : (D.order.take (i + 1)).length ≤ 10000 := by
          rw [List.length_take, hlen]
          omega
        exact_mod_cast this
      have g0 : (0 : ℝ) ≤ Real.log (2 * (L * L) : Nat) := b1.trans b2
      calc 20 * (2⁻¹ : ℝ) ^ 52 * (Real.log (2 * (L * L) : Nat) + 1) * ((D.order.take (i + 1)).length + 1)
          ≤ 20 * (2⁻¹ : ℝ) ^ 52 * (10 + 1) * (10000 + 1) := by
            refine mul_le_mul (mul_le_mul_of_nonneg_left (by linarith) (by positivity)) (by linarith) (by positivity) (by positivity)
        _ ≤ _ := by norm_num
    have hz2 : |(z : ℝ) / 10 ^ 32| ≤ 2 ^ 10 := by
      rw [abs_le] at hs ⊢
      have : (2 : ℝ) / 10 ^ 13 ≤ 1 := by norm_num
      constructor <;> norm_num at * <;> linarith
    obtain ⟨d1, d2⟩ := decimal_val hz2
    refine ⟨d1, f1, ?_⟩
    have q1 : (2 : ℝ) / 10 ^ 13 + 1 / 10 ^ 12 + 6 / 10 ^ 10 ≤ 1 / 10 ^ 9 := by norm_num
    rw [abs_le] at hs d2 f2 ⊢
    constructor <;> linarith [hs.1, hs.2, d2.1, d2.2, f2.1, f2.2]

open Classical in
/-- C114: such a file passes all comparisons of the test except possibly those of the entropies, which are compared for equality: it passes exactly if the
entropies computed are the recorded ones bit for bit. -/
theorem C114_test (hL : 3 ≤ L) (hL' : L ≤ 100) {D : DataFile} (H : TrueData L D) (hlg : Dbl.GoodLog lg (2⁻¹ ^ 52)) {text : Text}
    (hread : crossRead Dbl.ofText text = some (L, D.values L)) (ctor draws : Nat → Nat) {fuel : Nat} (hfuel : L * L < fuel) (ds : Nat → Draw) :
    ∃ g, crossReplay ⟨so, Dbl.arith lg⟩ L ctor draws (D.values L) fuel ds = .ok g ∧
    (crossTest ⟨so, Dbl.arith lg⟩ Dbl.ofText Dbl.near ctor draws fuel ds text = .ok () ↔ g.entropyList = (D.values L).entropyList) := by
  obtain ⟨g, e, p1, p2, p3, p4, p5, p6, _⟩ := C114_replay (so := so) hL hL' H hlg ctor draws hfuel ds
  refine ⟨g, e, ?_⟩
  rw [C90_test hread]
  constructor
  · rintro ⟨g', e', _, _, _, h⟩
    rw [e] at e'
    obtain rfl := Except.ok.inj e'
    apply List.ext_getElem?
    intro i
    by_cases hi : i < (D.values L).entropyList.length
    · obtain ⟨x, h1, h2⟩ := (h i hi).1
      rw [h1, h2]
    · rw [List.getElem?_eq_none (by omega), List.getElem?_eq_none (by omega)]
  · intro h
    have fin : (D.values L).pc.Finite := by
      refine (decimal_val (k := 4) (z := D.pc) ?_).1
      have hc := H.crit
      rw [CritOf, if_pos hL] at hc
      obtain ⟨pre, k, post, c1, _, _, c4, _⟩ := hc
      have hlen : D.order.length = L * L := by rw [H.perm.length_eq, List.length_range]
      rw [c1, List.length_append, List.length_cons] at hlen
      have hp : (0 : ℝ) < (L * L : Nat) := by exact_mod_cast Nat.mul_pos (by omega) (by omega)
      have : ((pre.length + 1 : Nat) : ℝ) / (L * L : Nat) ≤ 1 := by
        rw [div_le_one hp]
        exact_mod_cast (by omega : pre.length + 1 ≤ L * L)
      have h0 : (0 : ℝ) ≤ ((pre.length + 1 : Nat) : ℝ) / (L * L : Nat) := by positivity
      have c4' : ((D.pc : Int) : ℝ) / 10 ^ 4 = ((pre.length + 1 : Nat) : ℝ) / (L * L : Nat) := by
        rw [← c4, Int.cast_natCast]
      rw [c4', abs_of_nonneg h0]
      exact this.trans (by norm_num)
    have l1 : (D.values L).entropyList.length = L * L := (List.length_map _).trans H.entropy.1
    have l2 : (D.values L).orderLargestList.length = L * L := (List.length_map _).trans H.largest.1
    have l3 : (D.values L).orderWrappingList.length = L * L := (List.length_map _).trans H.wrapping.1
    refine ⟨g, e, ?_, p2, p3, fun i hi => ?_⟩
    · rw [p1, C109_near fin fin (by rw [sub_self, abs_zero]; exact zero_le_one.trans Dbl.one_le_big), sub_self, Dbl.nearest_zero, abs_zero]
      exact Dbl.tolerance_pos
    · rw [h, p4, p5]
      exact ⟨⟨_, List.getElem?_eq_getElem hi, List.getElem?_eq_getElem hi⟩, ⟨_, List.getElem?_eq_getElem (by omega), List.getElem?_eq_getElem (by omega)⟩,
        ⟨_, List.getElem?_eq_getElem (by omega), List.getElem?_eq_getElem (by omega)⟩⟩

/-! ### Evaluation -/

/-- `powSum` as it is evaluated. -/
def powSumN : List Nat → Nat
  | [] => 0
  | x :: l => Nat.add (Nat.pow 65536 x) (powSumN l)

theorem powSumN_eq : ∀ l : List Nat, powSumN l = powSum l
  | [] => rfl
  | x :: l => by
    rw [powSumN, powSumN_eq l]
    simp [powSum]

/-- The order parameters are the recorded ones, in units of `10⁻⁴`. -/
def statsAre (n : Nat) : List (Nat × Nat × Nat) → List Nat → List Nat → Bool
  | [], [], [] => true
  | t :: ts, l :: ls, w :: ws => Nat.beq (t.2.1 * 10000) (l * n) && Nat.beq (t.2.2 * 10000) (w * n) && statsAre n ts ls ws
  | _, _, _ => false

theorem statsAre_get {n : Nat} : ∀ {ts : List (Nat × Nat × Nat)} {ls ws : List Nat}, statsAre n ts ls ws = true →
    ls.length = ts.length ∧ ws.length = ts.length ∧ ∀ (i : Nat) (t : Nat × Nat × Nat), ts[i]? = some t →
      (∀ l, ls[i]? = some l → t.2.1 * 10000 = l * n) ∧ ∀ w, ws[i]? = some w → t.2.2 * 10000 = w * n
  | [], [], [], _ => ⟨rfl, rfl, fun i t h => by simp at h⟩
  | t :: ts, l :: ls, w :: ws, h => by
    rw [statsAre, Bool.and_eq_true, Bool.and_eq_true] at h
    obtain ⟨⟨h1, h2⟩, h3⟩ := h
    obtain ⟨i1, i2, i3⟩ := statsAre_get h3
    refine ⟨by simp [i1], by simp [i2], fun i t' ht => ?_⟩
    cases i with
    | zero =>
      obtain rfl : t = t' := by simpa using ht
      refine ⟨fun l' hl => ?_, fun w' hw => ?_⟩
      · obtain rfl : l = l' := by simpa using hl
        exact Nat.eq_of_beq_eq_true h1
      · obtain rfl : w = w' := by simpa using hw
        exact Nat.eq_of_beq_eq_true h2
    | succ i =>
      obtain ⟨a, b⟩ := i3 i t' (by simpa using ht)
      exact ⟨fun l' hl => a l' (by simpa using hl), fun w' hw => b w' (by simpa using hw)⟩

theorem stageStats_length (n k : Nat) : ∀ (cs : List (List (Nat × Nat))) (j : Nat), (stageStats n k j cs).length = cs.length
  | [], _ => rfl
  | c :: cs, j => by rw [stageStats, List.length_cons, List.length_cons, stageStats_length n k cs]

/-- The logarithms of 1, …, 200 in units of `10⁻²⁰`. -/
def logTable : List Nat :=
  [0, 69314718055994530934, 109861228866810969125, 138629436111989061864, 160943791243410037436, 179175946922805500053, 194591014905531330477,
    207944154167983592787, 219722457733621938236, 230258509299404568354, 239789527279837054354, 248490664978800030967, 256494935746153673548,
    263905732961525861391, 270805020110221006535, 277258872223978123699, 283321334405621607954, 289037175789616469146, 294443897916644045923,
    299573227355399099263, 304452243772342299567, 309104245335831585262, 313549421592914968992, 317805383034794561872, 321887582486820074824,
    325809653802148204448, 329583686600432907315, 333220451017520392288, 336729582998647402609, 340119738166215537429, 343398720448514624477,
    346573590279972654591, 349650756146648023425, 352636052461616138843, 355534806148941367844, 358351893845611000033, 361091791264422444304,
    363758615972638576807, 366356164612964642607, 368887945411393630145, 371357206670430780245, 373766961828336830447, 376120011569356242199,
    378418963391826116139, 380666248977031975587, 382864139648909499868, 385014760171005858525, 387120101090789092748, 389182029811062660860,
    391202300542814605699, 393182563272432576999, 395124371858142735321, 397029191355212183243, 398898404656427438187, 400733318523247091691,
    402535169073514923158, 404305126783455014960, 406044301054641933477, 407753744390571944876, 409434456222210068294, 411087386417331124683,
    412713438504509155341, 414313472639153268594, 415888308335967185452, 417438726989563710865, 418965474202642554283, 420469261939096605760,
    421950770517610669699, 423410650459725938008, 424849524204935898697, 426267987704131541915, 427666611901605530883, 429045944114839112684,
    430406509320416975151, 431748811353631043829, 433073334028633107651, 434380542185368384681, 435670882668959173449, 436944785246702149177,
    438202663467388160985, 439444915467243876313, 440671924726425311080, 441884060779659792098, 443081679884331361282, 444265125649031645232,
    445434729625350773034, 446590811865458371600, 447733681447820646972, 448863636973213983570, 449980967033026506418, 451085950651685003851,
    452178857704904030697, 453259949315325593464, 454329478227000389353, 455387689160054083189, 456434819146783623575, 457471097850338281936,
    458496747867057191685, 459511985013458992406, 460517018598809136522, 461512051684125944805, 462497281328427107821, 463472898822963576789,
    464439089914137266141, 465396035015752336818, 466343909411206714063, 467282883446190617035, 468213122712421969005, 469134788222914369738,
    470048036579241622507, 470953020131233413273, 471849887129509453971, 472738781871234056549, 473619844839449545771, 474493212836325006228,
    475359019110636464287, 476217393479775611568, 477068462446566475684, 477912349311152938215, 478749174278204599102, 479579054559674108489,
    480402104473325655492, 481218435537241749199, 482028156560503686147, 482831373730230112048, 483628190695147799397, 484418708645859126968,
    485203026391961716253, 485981240436167211145, 486753445045558241663, 487519732320115154069, 488280192258637085082, 489034912822175376162,
    489783979995091136557, 490527477843842944525, 491265488573605200495, 491998092582812491174, 492725368515720468803, 493447393313069175359,
    494164242260930429492, 494875989037816827457, 495582705760126072708, 496284463025990727643, 496981329957600061676, 497673374242057439805,
    498360662170833643476, 499043258677873629784, 499721227376411505941, 500394630594545913718, 501063529409625574617, 501727983681492432493,
    502388052084627638437, 503043792139243545913, 503695260241362915465, 504342511691924661657, 504985600724953704230, 505624580534830805343,
    506259503302696679958, 506890420222023152150, 507517381523382691762, 508140436498446299183, 508759633523238407089, 509375020080676232993,
    509986642782419841855, 510594547390058060589, 511198778835654322871, 511799381241675510306, 512396397940325892053, 512989871492307346786,
    513579843705026175999, 514166355650265983850, 514749447681345303799, 515329159449777894260, 515905529921452902364, 516478597392351404993,
    517048399503815177733, 517614973257382913759, 518178355029208514330, 518738580584075499172, 519295685089021037175, 519849703126582574234,
    520400668707679534606, 520948615284142093561, 521493575760898561450, 522035582507832481439, 522574667371320124214, 523110861685458661969,
    523644196282994920102, 524174701505964237463, 524702407216048613935, 525227342804662986816, 525749537202778154318, 526269018890488554711,
    526785815906332812677, 527299955856374679727, 527811465923051722425, 528320372873798850196, 528826703069453523143, 529330482472449239055,
    529831736654803667257]

theorem logTable_eq : logs 200 = logTable := by decide +kernel

theorem trueData (hL : 3 ≤ L) (hL' : L ≤ 10) {D : DataFile} {n : Nat} (hp : powSumN D.order = powSumN (List.range (L * L))) (hlen : D.order.length = L * L)
    (hr : rowIs L D.order (n, D.sites, D.bonds) = true) (hn : D.pc * (L * L) = n * 10000)
    (hs : statsAre (2 * (L * L)) (orderStats L D.order n) D.largest D.wrapping = true)
    (he : entropiesNear (2 * (L * L)) (logTable.getD (2 * (L * L) - 1) 0) logTable (compsAt L (singles L) D.order) D.entropies = true) : TrueData L D := by
  have hL0 : 0 < L := by omega
  have hLL : L * L ≤ 10 * 10 := Nat.mul_le_mul hL' hL'
  have hLp : 0 < L * L := Nat.mul_pos hL0 hL0
  have hLr : ((L * L : Nat) : ℝ) ≠ 0 := by exact_mod_cast hLp.ne'
  have hNr : ((2 * (L * L) : Nat) : ℝ) ≠ 0 := by exact_mod_cast (by omega : 2 * (L * L) ≠ 0)
  have perm : D.order.Perm (List.range (L * L)) := by
    rw [powSumN_eq, powSumN_eq] at hp
    exact powSum_perm (by omega) (by rw [List.length_range]; omega) hp
  have hlt : ∀ s ∈ D.order, s < L * L := fun s hs => List.mem_range.1 (perm.mem_iff.1 hs)
  have hw : wrapsFirst L D.order n = true := by
    rw [rowIs, Bool.and_eq_true] at hr
    exact hr.1
  obtain ⟨s1, s2, s3⟩ := statsAre_get hs
  have hstat : ∀ i < L * L, (orderStats L D.order n)[i]? = some (powSum (sizesAt L D.order i), seqLargest L (D.order.take (i + 1)), seqWrapping L (D.order.take (i + 1))) :=
    fun i hi => (orderStats_spec hL hlen hw hi).1
  obtain ⟨c1, c2⟩ := compsAt_listed D.order (listed_singles (L := L) (occ := (· ∈ ([] : List Nat))) (by simp)) hlt
  rw [← logTable_eq] at he
  obtain ⟨e1, e2⟩ := entropiesNear_get he
  have slen : (orderStats L D.order n).length = L * L := by
    unfold orderStats
    have : D.order.drop (n - 1) ≠ [] := by
      intro h0
      rw [wrapsFirst, h0] at hw
      cases hw
    cases hd : D.order.drop (n - 1) with
    | nil => exact absurd hd this
    | cons k post =>
      show (stageStats n k 0 (compsAt L (singles L) D.order)).length = _
      rw [stageStats_length, c1, hlen]
  refine ⟨perm, ?_, ⟨s1.trans slen, fun i m hm => ?_⟩, ⟨s2.trans slen, fun i m hm => ?_⟩, ⟨e1 ▸ c1.trans hlen, fun i z hz => ?_⟩⟩
  · obtain ⟨c, hc⟩ : ∃ c, CritOf L D.order c := by
      obtain ⟨S, T, _⟩ := trace_of_order demoSet hL0 (perm.nodup_iff.2 List.nodup_range) hlt
      have ht : D.order.take (L * L) = D.order := List.take_of_length_le (by omega)
      exact ⟨_, critOf_prefix (m := L * L) (by rw [ht]; exact T) fun _ => by
        rw [ht]
        exact full_wraps hL0 fun s hs => perm.mem_iff.2 (List.mem_range.2 hs)⟩
    have := rowIs_crit hL hr hc
    rw [this] at hc
    rw [show (D.pc : ℝ) / 10 ^ 4 = (n : ℝ) / (L * L : Nat) by
      rw [div_eq_div_iff (by norm_num) hLr]
      exact_mod_cast hn]
    exact hc
  · have hi : i < L * L := by
      have := (List.getElem?_eq_some_iff.1 hm).1
      omega
    have := (s3 i _ (hstat i hi)).1 m hm
    rw [div_eq_div_iff (by norm_num) hNr]
    have h' : m * (2 * (L * L)) = seqLargest L (D.order.take (i + 1)) * 10 ^ 4 := this.symm
    exact_mod_cast h'
  · have hi : i < L * L := by
      have := (List.getElem?_eq_some_iff.1 hm).1
      omega
    have := (s3 i _ (hstat i hi)).2 m hm
    rw [div_eq_div_iff (by norm_num) hNr]
    have h' : m * (2 * (L * L)) = seqWrapping L (D.order.take (i + 1)) * 10 ^ 4 := this.symm
    exact_mod_cast h'
  · have hi : i < (compsAt L (singles L) D.order).length := by
      rw [e1]
      exact (List.getElem?_eq_some_iff.1 hz).1
    have hc := List.getElem?_eq_getElem hi
    have I := c2 i _ hc
    have := I.entropy hL0 (t := 200) (by omega) (e2 i _ z hc hz)
    refine this.trans ?_
    norm_num

/-- C114: the file for the length 5 contains the true data of its order. -/
theorem C114_file5 : TrueData 5 file5 :=
  trueData (n := 13) (by norm_num) (by norm_num) (by decide +kernel) (by decide +kernel) (by decide +kernel) (by decide +kernel) (by decide +kernel) (by decide +kernel)

/-- C114: the file for the length 10 contains the true data of its order. -/
theorem C114_file10 : TrueData 10 file10 :=
  trueData (n := 59) (by norm_num) (by norm_num) (by decide +kernel) (by decide +kernel) (by decide +kernel) (by decide +kernel) (by decide +kernel) (by decide +kernel)

/-- C114: the two files: what the test computes from them. -/
theorem C114_replays (hlg : Dbl.GoodLog lg (2⁻¹ ^ 52)) (ctor draws : Nat → Nat) {fuel : Nat} (hfuel : 100 < fuel) (ds : Nat → Draw) :
    ∀ p ∈ [(5, file5), (10, file10)], ∃ g, crossReplay ⟨so, Dbl.arith lg⟩ p.1 ctor draws (p.2.values p.1) fuel ds = .ok g ∧
      g.pc = (p.2.values p.1).pc ∧ g.siteCount = p.2.sites ∧ g.bondCount = p.2.bonds ∧ g.orderLargestList = (p.2.values p.1).orderLargestList ∧
      g.orderWrappingList = (p.2.values p.1).orderWrappingList ∧ g.entropyList.length = (p.2.values p.1).entropyList.length ∧
      ∀ (i : Nat) (x y : Dbl), (p.2.values p.1).entropyList[i]? = some x → g.entropyList[i]? = some y → x.Finite ∧ y.Finite ∧ |x.val - y.val| ≤ 1 / 10 ^ 9 := by
  intro p hp
  simp only [List.mem_cons, List.not_mem_nil, or_false] at hp
  rcases hp with rfl | rfl
  · exact C114_replay (by norm_num) (by norm_num) C114_file5 hlg ctor draws (by omega) ds
  · exact C114_replay (by norm_num) (by norm_num) C114_file10 hlg ctor draws (by omega) ds

theorem decimal_finite {k : Nat} {z : Int} (h : |z| ≤ 1000 * 10 ^ k) : (decimal k z).Finite := by
  refine (decimal_val ?_).1
  rw [abs_div, abs_of_pos (show (0 : ℝ) < 10 ^ k by positivity), div_le_iff₀ (by positivity)]
  have h' : |(z : ℝ)| ≤ 1000 * 10 ^ k := by exact_mod_cast h
  refine h'.trans ?_
  have : (0 : ℝ) < 10 ^ k := by positivity
  nlinarith

/-- There are texts from which these values are read: `json.dumps` of them. -/
example : ∃ text, crossRead Dbl.ofText text = some (10, file10.values 10) := by
  have hfin : ∀ x ∈ (file10.values 10).reals, x.Finite := by
    intro x hx
    have h1 : ∀ z ∈ file10.entropies, |z| ≤ 1000 * 10 ^ 32 := by decide +kernel
    have h2 : ∀ n ∈ file10.largest ++ file10.wrapping, |(n : Int)| ≤ 1000 * 10 ^ 4 := by decide +kernel
    simp only [CrossFile.reals, DataFile.values, List.mem_cons, List.mem_append, List.mem_map] at hx
    rcases hx with rfl | hx
    · exact decimal_finite (by decide +kernel)
    · rcases hx with (⟨z, hz, rfl⟩ | ⟨n, hn, rfl⟩) | ⟨n, hn, rfl⟩
      · exact decimal_finite (h1 z hz)
      · exact decimal_finite (h2 n (List.mem_append_left _ hn))
      · exact decimal_finite (h2 n (List.mem_append_right _ hn))
  exact ⟨_, C90_cross 10 ⟨2021, 3, 29, 19, 21, 24⟩ (fun x hx => (C109_read_repr (hfin x hx)).2) fun x hx => (C109_read_repr (hfin x hx)).1⟩

end SqPerc
