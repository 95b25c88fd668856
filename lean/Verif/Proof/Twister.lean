import Verif.Model.Twister
import Mathlib.Data.Fintype.BigOperators
import Mathlib.SetTheory.Cardinal.Finite
import Mathlib.Tactic.Linarith
/-
The Mersenne Twister: its steps are invertible.
-/
namespace SqPerc
namespace MT

/-! ### Bits -/

theorem bit_sign {i : Nat} (h : i < 32) : (0x80000000#32).getLsbD i = decide (i = 31) := by
  revert i; decide

theorem bit_low {i : Nat} (h : i < 32) : (0x7fffffff#32).getLsbD i = decide (i < 31) := by
  revert i; decide

theorem join_bit {a b : W} {i : Nat} (h : i < 32) : (join a b).getLsbD i = if i = 31 then a.getLsbD 31 else b.getLsbD i := by
  unfold join
  rw [BitVec.getLsbD_or, BitVec.getLsbD_and, BitVec.getLsbD_and, bit_sign h, bit_low h]
  by_cases e : i = 31
  · subst e; simp
  · simp [e, show i < 31 by omega]

/-- The step of the recurrence keeps all information about its argument. -/
theorem mag_inj {y z : W} (h : mag y = mag z) : y = z := by
  have hb : ∀ (x : W) (i : Nat), (mag x).getLsbD i = (x.getLsbD (1 + i) ^^ (x.getLsbD 0 && (0x9908b0df#32).getLsbD i)) := by
    intro x i
    unfold mag
    rw [BitVec.getLsbD_xor, BitVec.getLsbD_ushiftRight]
    cases x.getLsbD 0 <;> simp
  have h0 : y.getLsbD 0 = z.getLsbD 0 := by
    have h1 := congrArg (fun x : W => x.getLsbD 31) h
    simp only [hb] at h1
    have e : (0x9908b0df#32).getLsbD 31 = true := by decide
    rw [e, BitVec.getLsbD_of_ge y _ (by norm_num), BitVec.getLsbD_of_ge z _ (by norm_num)] at h1
    simpa using h1
  refine BitVec.eq_of_getLsbD_eq fun i hi => ?_
  cases i with
  | zero => exact h0
  | succ i =>
    have h1 := congrArg (fun x : W => x.getLsbD i) h
    simp only [hb, h0, Nat.add_comm 1 i] at h1
    simpa using h1

theorem shiftRight_xor_inj {y z : W} {n : Nat} (hn : 0 < n) (h : y ^^^ (y >>> n) = z ^^^ (z >>> n)) : y = z := by
  have key : ∀ k i, i < 32 → 32 ≤ i + k → y.getLsbD i = z.getLsbD i := by
    intro k
    induction k with
    | zero => intro i h1 h2; omega
    | succ k ih =>
      intro i h1 h2
      have h3 := congrArg (fun x : W => x.getLsbD i) h
      simp only [BitVec.getLsbD_xor, BitVec.getLsbD_ushiftRight] at h3
      have h4 : y.getLsbD (n + i) = z.getLsbD (n + i) := by
        by_cases hc : n + i < 32
        · exact ih _ hc (by omega)
        · rw [BitVec.getLsbD_of_ge y _ (by omega), BitVec.getLsbD_of_ge z _ (by omega)]
      rw [h4] at h3
      simpa using h3
  exact BitVec.eq_of_getLsbD_eq fun i hi => key 32 i hi (by omega)

theorem shiftLeft_xor_inj {y z b : W} {n : Nat} (hn : 0 < n) (h : y ^^^ ((y <<< n) &&& b) = z ^^^ ((z <<< n) &&& b)) : y = z := by
  have key : ∀ i, i < 32 → y.getLsbD i = z.getLsbD i := by
    intro i
    induction i using Nat.strong_induction_on with
    | _ i ih =>
      intro hi
      have h3 := congrArg (fun x : W => x.getLsbD i) h
      simp only [BitVec.getLsbD_xor, BitVec.getLsbD_and, BitVec.getLsbD_shiftLeft] at h3
      by_cases hc : i < n
      · simpa [hc] using h3
      · rw [ih (i - n) (by omega) (by omega)] at h3
        simpa using h3
  exact BitVec.eq_of_getLsbD_eq key

/-- Tempering loses nothing. -/
theorem temper_inj {y z : W} (h : temper y = temper z) : y = z := by
  unfold temper at h
  exact shiftRight_xor_inj (by norm_num) (shiftLeft_xor_inj (by norm_num) (shiftLeft_xor_inj (by norm_num) (shiftRight_xor_inj (by norm_num) h)))

/-! ### The recurrence -/

/-- The words of the array and the untempered words that follow them. -/
def line (mt : List W) (k : Nat) : W :=
  if k < 624 then at' mt k else line mt (k - 227) ^^^ mag (join (line mt (k - 624)) (line mt (k - 623)))
termination_by k
decreasing_by all_goals omega

theorem line_lt {mt : List W} {k : Nat} (h : k < 624) : line mt k = at' mt k := by rw [line, if_pos h]

theorem line_add (mt : List W) (k : Nat) : line mt (k + 624) = line mt (k + 397) ^^^ mag (join (line mt k) (line mt (k + 1))) := by
  rw [line, if_neg (by omega), show k + 624 - 227 = k + 397 by omega, show k + 624 - 624 = k by omega, show k + 624 - 623 = k + 1 by omega]

theorem at_set {mt : List W} {i j : Nat} {v : W} (hi : i < mt.length) : at' (mt.set i v) j = if j = i then v else at' mt j := by
  unfold at'
  rw [List.getD_eq_getElem?_getD, List.getD_eq_getElem?_getD, List.getElem?_set]
  by_cases e : i = j
  · subst e; simp [hi]
  · rw [if_neg e, if_neg (Ne.symm e)]

theorem renew_steps {mt : List W} (h : mt.length = 624) : ∀ n, n ≤ 624 →
    ((List.range n).foldl renewStep mt).length = 624 ∧
      ∀ i < 624, at' ((List.range n).foldl renewStep mt) i = if i < n then line mt (i + 624) else line mt i := by
  intro n
  induction n with
  | zero =>
    intro _
    refine ⟨h, fun i hi => ?_⟩
    rw [if_neg (by omega), line_lt hi]
    rfl
  | succ n ih =>
    intro hn
    obtain ⟨h1, h2⟩ := ih (by omega)
    rw [List.range_succ, List.foldl_append, List.foldl_cons, List.foldl_nil]
    generalize (List.range n).foldl renewStep mt = m at h1 h2
    unfold renewStep
    refine ⟨by rw [List.length_set, h1], fun i hi => ?_⟩
    rw [at_set (by omega)]
    by_cases e : i = n
    · subst e
      rw [if_pos rfl, if_pos (by omega), line_add, h2 i hi, if_neg (lt_irrefl _)]
      have e1 : at' m ((i + 397) % 624) = line mt (i + 397) := by
        rw [h2 _ (Nat.mod_lt _ (by norm_num))]
        by_cases hc : i + 397 < 624
        · rw [Nat.mod_eq_of_lt hc, if_neg (by omega)]
        · have : (i + 397) % 624 = i + 397 - 624 := by omega
          rw [this, if_pos (by omega), show i + 397 - 624 + 624 = i + 397 by omega]
      have e2 : at' m ((i + 1) % 624) = line mt (i + 1) := by
        rw [h2 _ (Nat.mod_lt _ (by norm_num))]
        by_cases hc : i + 1 < 624
        · rw [Nat.mod_eq_of_lt hc, if_neg (by omega)]
        · have : (i + 1) % 624 = 0 := by omega
          rw [this, if_pos (by omega), show i + 1 = 0 + 624 by omega]
      rw [e1, e2]
    · rw [if_neg e, h2 i hi]
      by_cases hc : i < n
      · rw [if_pos hc, if_pos (by omega)]
      · rw [if_neg hc, if_neg (by omega)]

theorem renew_length {mt : List W} (h : mt.length = 624) : (renew mt).length = 624 := (renew_steps h 624 le_rfl).1

theorem renew_at {mt : List W} (h : mt.length = 624) {i : Nat} (hi : i < 624) : at' (renew mt) i = line mt (i + 624) := by
  have := (renew_steps h 624 le_rfl).2 i hi
  rwa [if_pos hi] at this

attribute [local irreducible] renew

theorem line_renew {mt : List W} (h : mt.length = 624) (k : Nat) : line (renew mt) k = line mt (k + 624) := by
  induction k using Nat.strong_induction_on with
  | _ k ih =>
    by_cases hk : k < 624
    · rw [line_lt hk, renew_at h hk]
    · obtain ⟨m, rfl⟩ : ∃ m, k = m + 624 := ⟨k - 624, by omega⟩
      rw [line_add, ih _ (by omega), ih m (by omega), ih (m + 1) (by omega), line_add mt (m + 624), show m + 397 + 624 = m + 624 + 397 by omega,
        show m + 1 + 624 = m + 624 + 1 by omega]

/-- A state that the generator can be in. -/
def State.Valid (g : State) : Prop := g.mt.length = 624 ∧ g.index ≤ 624

theorem next_renew {mt : List W} {n : Nat} (h : 624 ≤ n) : (next ⟨mt, n⟩).2 = ⟨renew mt, 1⟩ := by
  unfold next
  simp only [if_pos h]

theorem next_keep {mt : List W} {n : Nat} (h : ¬ 624 ≤ n) : (next ⟨mt, n⟩).2 = ⟨mt, n + 1⟩ := by
  unfold next
  simp only [if_neg h]

theorem next_line {u : State} (h : u.Valid) : (next u).2.Valid ∧ ∀ k, line (next u).2.mt ((next u).2.index + k) = line u.mt (u.index + 1 + k) := by
  obtain ⟨mt, n⟩ := u
  obtain ⟨h1, h2⟩ := h
  simp only at h1 h2
  by_cases hc : 624 ≤ n
  · rw [next_renew hc]
    refine And.intro (And.intro (renew_length h1) (by show 1 ≤ 624; omega)) fun k => ?_
    show line (renew mt) (1 + k) = line mt (n + 1 + k)
    rw [line_renew h1]
    congr 1; omega
  · rw [next_keep hc]
    exact And.intro (And.intro h1 (by show n + 1 ≤ 624; omega)) fun k => rfl

/-- The position reached by `i` calls, in the sequence of the block at the start. -/
theorem after_line {g : State} (h : g.Valid) (i : Nat) : (after g i).Valid ∧ ∀ k, line (after g i).mt ((after g i).index + k) = line g.mt (g.index + i + k) := by
  induction i with
  | zero => exact ⟨h, fun k => rfl⟩
  | succ i ih =>
    obtain ⟨h1, h2⟩ := next_line ih.1
    rw [after]
    refine ⟨h1, fun k => ?_⟩
    rw [h2, Nat.add_assoc, ih.2]
    congr 1; omega

/-- The words are the tempered members of the sequence. -/
theorem words_line {g : State} (h : g.Valid) (i : Nat) : words g i = (temper (line g.mt (g.index + i))).toFin := by
  obtain ⟨⟨h1, h1'⟩, h2⟩ := after_line h i
  unfold words next
  simp only
  congr 2
  rw [← Nat.add_zero (g.index + i), ← h2 0]
  split
  · next hc => rw [renew_at h1 (by norm_num), show (after g i).index + 0 = 0 + 624 by omega]
  · next hc => exact (line_lt (by omega)).symm

/-! ### Windows of the sequence -/

/-- What the sequence from the place `k` on depends on: the top bit there and the next 623 words. -/
abbrev Window := Bool × (Fin 623 → W)

/-- The window one place further. -/
def slide (s : Window) : Window :=
  ((s.2 0).getLsbD 31, fun i => if h : i.1 < 622 then s.2 ⟨i.1 + 1, by omega⟩ else
    s.2 396 ^^^ mag (join (if s.1 then 0x80000000#32 else 0#32) (s.2 0)))

theorem slide_inj : Function.Injective slide := by
  rintro ⟨b, y⟩ ⟨c, z⟩ h
  unfold slide at h
  rw [Prod.mk.injEq] at h
  obtain ⟨h1, h2⟩ := h
  simp only at h1 h2
  have hlater : ∀ i : Fin 623, 0 < i.1 → y i = z i := by
    intro i hi
    have := congrFun h2 ⟨i.1 - 1, by omega⟩
    simp only at this
    rw [dif_pos (by omega), dif_pos (by omega)] at this
    have e : (⟨i.1 - 1 + 1, by omega⟩ : Fin 623) = i := Fin.ext (by simp only; omega)
    rwa [e] at this
  have hlast := congrFun h2 ⟨622, by norm_num⟩
  simp only [lt_irrefl, dif_neg, not_false_iff] at hlast
  rw [hlater 396 (by decide), BitVec.xor_right_inj] at hlast
  have hj := mag_inj hlast
  have hbit : ∀ i < 32, (join (if b then 0x80000000#32 else 0#32) (y 0)).getLsbD i = (join (if c then 0x80000000#32 else 0#32) (z 0)).getLsbD i := by
    intro i _; rw [hj]
  have h0 : y 0 = z 0 := by
    refine BitVec.eq_of_getLsbD_eq fun i hi => ?_
    by_cases e : i = 31
    · rw [e]; exact h1
    · have := hbit i hi
      rwa [join_bit hi, join_bit hi, if_neg e, if_neg e] at this
  have hb : b = c := by
    have := hbit 31 (by norm_num)
    rw [join_bit (by norm_num), join_bit (by norm_num), if_pos rfl, if_pos rfl] at this
    cases b <;> cases c <;> revert this <;> decide
  have hy : y = z := by
    funext i
    by_cases e : i.1 = 0
    · rw [show i = 0 from Fin.ext e]; exact h0
    · exact hlater i (by omega)
  rw [hb, hy]

instance : Finite W := Finite.of_injective BitVec.toFin fun _ _ h => BitVec.toFin_inj.1 h

theorem slide_bij : Function.Bijective slide := Finite.injective_iff_bijective.1 slide_inj

/-- The window at place `k`. -/
def window (mt : List W) (k : Nat) : Window := ((line mt k).getLsbD 31, fun i => line mt (k + 1 + i.1))

theorem join_sign (a b : W) : join (if a.getLsbD 31 then 0x80000000#32 else 0#32) b = join a b := by
  refine BitVec.eq_of_getLsbD_eq fun i hi => ?_
  rw [join_bit hi, join_bit hi]
  split
  · cases a.getLsbD 31 <;> decide
  · rfl

theorem line_last (mt : List W) {k n : Nat} (h : ¬ n < 622) (hn : n < 623) : line mt (k + 1 + 1 + n) =
    line mt (k + 1 + 396) ^^^ mag (join (if (line mt k).getLsbD 31 then 0x80000000#32 else 0#32) (line mt (k + 1 + 0))) := by
  have e1 : k + 1 + 1 + n = k + 624 := by omega
  have e2 : k + 1 + 396 = k + 397 := by omega
  rw [e1, e2, join_sign, line_add mt k, Nat.add_zero]

theorem window_succ (mt : List W) (k : Nat) : window mt (k + 1) = slide (window mt k) := by
  unfold window slide
  refine Prod.ext rfl ?_
  funext ⟨n, hn⟩
  simp only
  split
  · congr 1; omega
  · next h => exact line_last mt h hn

theorem window_eq (mt : List W) (k : Nat) : window mt k = slide^[k] (window mt 0) := by
  induction k with
  | zero => rfl
  | succ k ih => rw [window_succ, ih, Function.iterate_succ_apply']

/-! ### Counting blocks -/

theorem card_sign (b : Bool) : Nat.card {a : W // a.getLsbD 31 = b} = 2 ^ 31 := by
  have e : {a : W // a.getLsbD 31 = b} ≃ Fin (2 ^ 31) := {
    toFun := fun a => (a.1.setWidth 31).toFin
    invFun := fun c => ⟨BitVec.cons b ⟨c⟩, by rw [BitVec.getLsbD_cons]; simp⟩
    left_inv := by
      rintro ⟨a, ha⟩
      refine Subtype.ext (BitVec.eq_of_getLsbD_eq fun i hi => ?_)
      rw [BitVec.getLsbD_cons]
      split
      · next e => rw [e, ha]
      · next e =>
        show (a.setWidth 31).getLsbD i = _
        rw [BitVec.getLsbD_setWidth]
        simp [show i < 31 by omega]
    right_inv := by
      intro c
      have : (BitVec.cons b (⟨c⟩ : BitVec 31)).setWidth 31 = ⟨c⟩ := BitVec.setWidth_cons
      simp only [this] }
  rw [Nat.card_congr e, Nat.card_eq_fintype_card, Fintype.card_fin]

theorem at_ofFn (x : Fin 624 → W) (i : Fin 624) : at' (List.ofFn x) i.1 = x i := by
  unfold at'
  rw [List.getD_eq_getElem?_getD, List.getElem?_ofFn, dif_pos i.2]
  rfl

theorem window_ofFn (x : Fin 624 → W) : window (List.ofFn x) 0 = ((x 0).getLsbD 31, fun i : Fin 623 => x i.succ) := by
  unfold window
  refine Prod.ext ?_ ?_
  · show (line (List.ofFn x) 0).getLsbD 31 = _
    rw [line_lt (by norm_num)]
    exact congrArg (fun a : W => a.getLsbD 31) (at_ofFn x 0)
  · funext i
    show line (List.ofFn x) (0 + 1 + i.1) = _
    rw [line_lt (by omega), show 0 + 1 + i.1 = (i.succ : Fin 624).1 by rw [Fin.val_succ]; omega]
    exact at_ofFn x i.succ

/-- A word put before 623 others. -/
def put (a : W) (y : Fin 623 → W) : Fin 624 → W := Fin.cons (α := fun _ => W) a y

theorem put_zero (a : W) (y : Fin 623 → W) : put a y 0 = a := rfl

theorem put_succ (a : W) (y : Fin 623 → W) (i : Fin 623) : put a y i.succ = y i := rfl

theorem ext_succ {n : Nat} {x y : Fin (n + 1) → W} (h0 : x 0 = y 0) (hs : ∀ j : Fin n, x j.succ = y j.succ) : x = y := by
  funext i
  induction i using Fin.cases with
  | zero => exact h0
  | succ j => exact hs j

theorem ext624 {x y : Fin 624 → W} (h0 : x 0 = y 0) (hs : ∀ j : Fin 623, x j.succ = y j.succ) : x = y := ext_succ (n := 623) h0 hs

theorem card_window (s : Window) : Nat.card {x : Fin 624 → W // window (List.ofFn x) 0 = s} = 2 ^ 31 := by
  rw [← card_sign s.1]
  refine Nat.card_congr {
    toFun := fun x => ⟨x.1 0, by
      have h := congrArg Prod.fst x.2
      rwa [window_ofFn] at h⟩
    invFun := fun a => ⟨put a.1 s.2, by
      rw [window_ofFn]
      exact Prod.ext a.2 (funext fun i => put_succ a.1 s.2 i)⟩
    left_inv := ?_
    right_inv := fun a => Subtype.ext (put_zero a.1 s.2) }
  rintro ⟨x, hx⟩
  rw [window_ofFn] at hx
  refine Subtype.ext (ext624 (put_zero (x 0) s.2) fun j => ?_)
  exact (put_succ (x 0) s.2 j).trans (congrFun (congrArg Prod.snd hx) j).symm

/-- Any 623 consecutive members of the sequence after the first take all values equally often. -/
theorem card_line (k : Nat) (v : Fin 623 → W) : Nat.card {x : Fin 624 → W // (window (List.ofFn x) k).2 = v} = 2 ^ 32 := by
  let σ : Window ≃ Window := Equiv.ofBijective _ (slide_bij.iterate k)
  have e : {x : Fin 624 → W // (window (List.ofFn x) k).2 = v} ≃ Σ b : Bool, {x : Fin 624 → W // window (List.ofFn x) 0 = σ.symm (b, v)} := {
    toFun := fun x => ⟨(window (List.ofFn x.1) k).1, x.1, by
      rw [Equiv.eq_symm_apply]
      show slide^[k] _ = _
      rw [← window_eq]
      exact Prod.ext rfl x.2⟩
    invFun := fun p => ⟨p.2.1, by
      have h := p.2.2
      rw [Equiv.eq_symm_apply] at h
      have h' : slide^[k] (window (List.ofFn p.2.1) 0) = (p.1, v) := h
      rw [window_eq, h']⟩
    left_inv := fun x => rfl
    right_inv := by
      rintro ⟨b, x, h⟩
      rw [Equiv.eq_symm_apply] at h
      have h' : slide^[k] (window (List.ofFn x) 0) = (b, v) := h
      have hb : (window (List.ofFn x) k).1 = b := by rw [window_eq, h']
      subst hb
      rfl }
  rw [Nat.card_congr e, Nat.card_sigma]
  simp only [card_window]
  rw [Finset.sum_const, Finset.card_univ, Fintype.card_bool]
  norm_num

end MT
end SqPerc
