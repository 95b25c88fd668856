import Verif.Proof.TwisterSpec
import Verif.Props.WordGrowth
/-
Property C110: what seeds do.
-/
namespace SqPerc

open MT TwisterSpec

variable {α : Type} {L : Nat} {v : Variant}

attribute [local irreducible] initByArray

theorem pyRng_seed (k : Int) : pyRng.seed k = words (initByArray (keyOf k.natAbs)) := rfl

theorem line_follows (mt : List W) : Recurs (line mt) := by
  intro k
  simp only
  rw [line_add, mag, BitVec.xor_assoc, join]
  congr 2
  have : ∀ y : W, y.getLsbD 0 = decide (y.toNat % 2 = 1) := by
    intro y
    rw [BitVec.getLsbD, Nat.testBit_zero]
  rw [this]
  by_cases h : (((line mt k &&& 0x80000000#32) ||| (line mt (k + 1) &&& 0x7fffffff#32)).toNat % 2 = 1)
  · rw [if_pos h, if_pos (decide_eq_true h)]
  · rw [if_neg h, if_neg (by simp only [decide_eq_true_eq]; exact h)]

theorem keyOf_ne (n : Nat) : keyOf n ≠ [] := by
  unfold keyOf
  split
  · exact List.cons_ne_nil _ _
  · next h =>
    intro e
    rw [List.map_eq_nil_iff, Nat.digits_eq_nil_iff_eq_zero] at e
    exact h e

theorem keyOf_toNat {n : Nat} (h : n ≠ 0) : (keyOf n).map BitVec.toNat = Nat.digits (2 ^ 32) n := by
  unfold keyOf
  rw [if_neg h, List.map_map]
  conv_rhs => rw [← List.map_id (Nat.digits (2 ^ 32) n)]
  refine List.map_congr_left fun d hd => ?_
  show (BitVec.ofNat 32 d).toNat = d
  rw [BitVec.toNat_ofNat, Nat.mod_eq_of_lt (Nat.digits_lt_base (by norm_num) hd)]

theorem keyOf_spec (n : Nat) : KeyOf n (keyOf n) := by
  refine ⟨keyOf_ne n, ?_, fun hl => ?_⟩
  · by_cases h : n = 0
    · subst h; rfl
    · rw [keyOf_toNat h, Nat.ofDigits_digits]
  · by_cases h : n = 0
    · subst h
      exact absurd hl (by decide)
    · intro e
      have e' : ((keyOf n).map BitVec.toNat).getLast? = some 0 := by rw [List.getLast?_map, e]; rfl
      rw [keyOf_toNat h] at e'
      have hne : Nat.digits (2 ^ 32) n ≠ [] := by rw [Ne, Nat.digits_eq_nil_iff_eq_zero]; exact h
      rw [List.getLast?_eq_getLast_of_ne_nil hne] at e'
      exact Nat.getLast_digit_ne_zero _ h (Option.some.inj e')

/-- C110, the generator: `random.seed(k)` writes the absolute value of `k` in base 2³², spreads these digits over 624 words as the program of Matsumoto
and Nishimura does, and the words that follow are the tempered members of their recurrence from the 624th on. -/
theorem C110_seed (k : Int) : ∃ key x, KeyOf k.natAbs key ∧ First key x ∧ Recurs x ∧ ∀ i, Puts (x (624 + i)) (BitVec.ofFin (pyRng.seed k i)) := by
  have hv := initByArray_valid (keyOf k.natAbs)
  have hf := seed_first (List.length_pos_iff.2 (keyOf_ne k.natAbs))
  refine ⟨keyOf k.natAbs, line (initByArray (keyOf k.natAbs)).mt, keyOf_spec _, ?_, line_follows _, fun i => ?_⟩
  · obtain ⟨a, u, h1, h2, h3, h4⟩ := hf
    refine ⟨a, u, h1, h2, ?_, fun s hs hs' => ?_⟩
    · rw [line_lt (by norm_num)]; exact h3
    · rw [line_lt (by omega)]; exact h4 s hs hs'
  · rw [pyRng_seed, words_line hv, initByArray_index]
    exact ⟨_, _, _, rfl, rfl, rfl, rfl⟩

/-- C110: the sign of the seed does not matter. -/
theorem C110_sign (k : Int) : pyRng.seed (-k) = pyRng.seed k := by
  rw [pyRng_seed, pyRng_seed, Int.natAbs_neg]

/-- C110: seeds between 2 and `2³² - 1` have a twin: the key `[k, k - 1]` adds the same numbers to the array as the key `[k]`. -/
theorem C110_twin {k : Nat} (h2 : 2 ≤ k) (hk : k < 2 ^ 32) : pyRng.seed k = pyRng.seed (k + (k - 1) * 2 ^ 32 : Nat) := by
  have hone : keyOf k = [BitVec.ofNat 32 k] := by
    unfold keyOf
    rw [if_neg (by omega), Nat.digits_of_lt _ _ (by omega) hk]
    rfl
  have htwo : keyOf (k + (k - 1) * 2 ^ 32) = [BitVec.ofNat 32 k, BitVec.ofNat 32 (k - 1)] := by
    unfold keyOf
    rw [if_neg (by omega), show k + (k - 1) * 2 ^ 32 = k + 2 ^ 32 * (k - 1) by rw [Nat.mul_comm], Nat.digits_add (2 ^ 32) (by norm_num) k (k - 1) hk (by omega),
      Nat.digits_of_lt _ (k - 1) (by omega) (by omega)]
    rfl
  rw [pyRng_seed, pyRng_seed, Int.natAbs_natCast, Int.natAbs_natCast, hone, htwo]
  refine congrArg words ?_
  refine initByArray_congr (by simp) (by simp) (by simp) (by simp) fun p hp hp' => ?_
  unfold added
  simp only [List.length_cons, List.length_nil, Nat.zero_add, Nat.mod_one]
  have hd : (p - 1) % 2 = 0 ∨ (p - 1) % 2 = 1 := by omega
  rcases hd with e | e <;> rw [show 1 + 1 = 2 from rfl, e]
  · rfl
  · show BitVec.ofNat 32 k + BitVec.ofNat 32 0 = BitVec.ofNat 32 (k - 1) + BitVec.ofNat 32 1
    rw [← BitVec.ofNat_add, ← BitVec.ofNat_add]
    congr 1
    omega

/-- C110: what a program with a given seed does depends on the words of the seed only; so equal words, equal results. -/
theorem C110_runs {j k : Int} (h : pyRng.seed j = pyRng.seed k) (env : Env α) (v : Variant) (pl : Bool) (fuel L n : Nat) (g g' : Nat → Word) :
    Perc.newG pyRng env L (some j) g = Perc.newG pyRng env L (some k) g' ∧
    runEnsembleG pyRng env v pl fuel L n (some j) g = runEnsembleG pyRng env v pl fuel L n (some k) g' ∧
    spEnsembleG pyRng env fuel L n (some j) g = spEnsembleG pyRng env fuel L n (some k) g' := by
  have h1 : ∀ g, Perc.newG pyRng env L (some j) g = Perc.newG pyRng env L (some k) g := by
    intro g
    simp only [Perc.newG, Rng.seeded, h]
  have h2 : Perc.newForRun pyRng env L (some j) g = Perc.newForRun pyRng env L (some k) g := by
    simp only [Perc.newForRun, h1]
  refine ⟨(h1 g).trans rfl, ?_, ?_⟩
  · rw [← (C61_seed_reproducible pl fuel n k g g').1]
    simp only [runEnsembleG, h2]
  · rw [← (C61_seed_reproducible (v := v) pl fuel n k g g').2]
    simp only [spEnsembleG, h2]

/-- C110, with the two laws above: the results of all seeded programs are the same for `k` and `-k`, and for `k` and `k + (k - 1) · 2³²`. -/
theorem C110_same_results (env : Env α) (v : Variant) (pl : Bool) (fuel L n : Nat) (g g' : Nat → Word) :
    (∀ k : Int, runEnsembleG pyRng env v pl fuel L n (some (-k)) g = runEnsembleG pyRng env v pl fuel L n (some k) g' ∧
      spEnsembleG pyRng env fuel L n (some (-k)) g = spEnsembleG pyRng env fuel L n (some k) g') ∧
    ∀ k : Nat, 2 ≤ k → k < 2 ^ 32 →
      runEnsembleG pyRng env v pl fuel L n (some k) g = runEnsembleG pyRng env v pl fuel L n (some (k + (k - 1) * 2 ^ 32 : Nat)) g' ∧
      spEnsembleG pyRng env fuel L n (some k) g = spEnsembleG pyRng env fuel L n (some (k + (k - 1) * 2 ^ 32 : Nat)) g' :=
  ⟨fun k => (C110_runs (C110_sign k) env v pl fuel L n g g').2, fun _ h2 hk => (C110_runs (C110_twin h2 hk) env v pl fuel L n g g').2⟩

/-- Two blocks with the same first word that put out the same first 624 words are equal from the second word on. -/
theorem words_inj {g g' : State} (h : g.Valid) (h' : g'.Valid) (hi : g.index = 624) (hi' : g'.index = 624) (hw : ∀ i < 624, words g i = words g' i) :
    window g.mt 0 = window g'.mt 0 := by
  have hline : ∀ i < 624, line g.mt (624 + i) = line g'.mt (624 + i) := by
    intro i hi0
    have := hw i hi0
    rw [words_line h, words_line h', hi, hi'] at this
    exact temper_inj (BitVec.toFin_inj.1 this)
  have hwin : window g.mt 624 = window g'.mt 624 := by
    unfold window
    refine Prod.ext ?_ (funext fun i => ?_)
    · show (line g.mt (624 + 0)).getLsbD 31 = (line g'.mt (624 + 0)).getLsbD 31
      rw [hline 0 (by norm_num)]
    · have e : 624 + 1 + i.1 = 624 + (1 + i.1) := by omega
      have := hline (1 + i.1) (by omega)
      rwa [← e] at this
  rw [window_eq g.mt, window_eq g'.mt] at hwin
  exact slide_inj.iterate 624 hwin

theorem window_zero_entries {mt mt' : List W} (h : window mt 0 = window mt' 0) {p : Nat} (h1 : 1 ≤ p) (h2 : p ≤ 623) : at' mt p = at' mt' p := by
  have e : ∀ i : Fin 623, line mt (0 + 1 + i.1) = line mt' (0 + 1 + i.1) := fun i => congrFun (congrArg Prod.snd h) i
  have e := e ⟨p - 1, by omega⟩
  simp only at e
  rwa [show 0 + 1 + (p - 1) = p by omega, line_lt (by omega), line_lt (by omega)] at e

theorem key_differs {m n l : Nat} (hl : l ≤ 620) (hml : (keyOf m).length = l + 1) (hnl : (keyOf n).length = l + 1) (hne : m ≠ n) :
    ∃ i < 624, pyRng.seed m i ≠ pyRng.seed n i := by
  by_contra hc
  push Not at hc
  have hkey : keyOf m = keyOf n := by
    have hw : ∀ i < 624, words (initByArray (keyOf m)) i = words (initByArray (keyOf n)) i := hc
    have hwin := words_inj (initByArray_valid (keyOf m)) (initByArray_valid (keyOf n)) (initByArray_index _) (initByArray_index _) hw
    have hadd := initByArray_added (key := keyOf m) (key' := keyOf n) (by omega) (by omega) (by omega) (by omega)
      fun p h1 h2 => window_zero_entries hwin h1 h2
    refine List.ext_getElem (by omega) fun j h1 h2 => ?_
    obtain ⟨p, hp, hp', hpj⟩ : ∃ p, 3 ≤ p ∧ p ≤ 623 ∧ (p - 1) % (l + 1) = j := by
      by_cases hj : 2 ≤ j
      · exact ⟨j + 1, by omega, by omega, by rw [Nat.add_sub_cancel, Nat.mod_eq_of_lt (by omega)]⟩
      · by_cases hl1 : l = 0
        · subst hl1
          exact ⟨3, le_rfl, by norm_num, by omega⟩
        · exact ⟨j + (l + 1) + 1, by omega, by omega, by rw [Nat.add_sub_cancel, Nat.add_mod_right, Nat.mod_eq_of_lt (by omega)]⟩
    have := hadd p hp hp'
    unfold added at this
    rw [hml, hnl, hpj, BitVec.add_left_inj] at this
    unfold at' at this
    rwa [List.getD_eq_getElem _ _ h1, List.getD_eq_getElem _ _ h2] at this
  refine hne ?_
  rw [← (keyOf_spec m).2.1, ← (keyOf_spec n).2.1, hkey]

/-- C110: different seeds with the same number of 32-bit digits, at most 621 of them, put out different words, and the difference shows in the first
624. -/
theorem C110_digits {l m n : Nat} (hl : l ≤ 620) (hm : 2 ^ (32 * l) ≤ m) (hm' : m < 2 ^ (32 * (l + 1))) (hn : 2 ^ (32 * l) ≤ n)
    (hn' : n < 2 ^ (32 * (l + 1))) (hne : m ≠ n) : ∃ i < 624, pyRng.seed m i ≠ pyRng.seed n i := by
  have hlen : ∀ q, 2 ^ (32 * l) ≤ q → q < 2 ^ (32 * (l + 1)) → (keyOf q).length = l + 1 := by
    intro q h1 h2
    have h0 : q ≠ 0 := by
      have : 0 < 2 ^ (32 * l) := by positivity
      omega
    have e : (keyOf q).length = (Nat.digits (2 ^ 32) q).length := by rw [← keyOf_toNat h0, List.length_map]
    rw [e]
    refine le_antisymm ?_ ?_
    · rw [Nat.digits_length_le_iff (by norm_num), ← pow_mul]; exact h2
    · rw [Nat.succ_le_iff, Nat.lt_digits_length_iff (by norm_num), ← pow_mul]; exact h1
  exact key_differs hl (hlen m hm hm') (hlen n hn hn') hne

/-- C110: different seeds between 0 and `2³² - 1` put out different words. -/
theorem C110_distinct {m n : Nat} (hm : m < 2 ^ 32) (hn : n < 2 ^ 32) (hne : m ≠ n) : ∃ i < 624, pyRng.seed m i ≠ pyRng.seed n i := by
  have hlen : ∀ q < 2 ^ 32, (keyOf q).length = 0 + 1 := by
    intro q hq
    unfold keyOf
    split
    · rfl
    · next h => rw [Nat.digits_of_lt _ _ h hq]; rfl
  exact key_differs (by norm_num) (hlen m hm) (hlen n hn) hne

/-- C110: no seed makes the generator put out zeros for ever; a word that is not zero is among the first 624. -/
theorem C110_alive (k : Int) : ∃ i < 624, pyRng.seed k i ≠ 0 := by
  by_contra hc
  push Not at hc
  have hz : (⟨List.replicate 624 0, 624⟩ : State).Valid := And.intro (by show (List.replicate 624 (0 : W)).length = 624; rw [List.length_replicate]) le_rfl
  have hline : ∀ i, line (List.replicate 624 0) i = 0 := by
    intro i
    induction i using Nat.strong_induction_on with
    | _ i ih =>
      by_cases hi : i < 624
      · rw [line_lt hi]
        unfold at'
        rw [List.getD_replicate _ hi]
      · obtain ⟨q, rfl⟩ : ∃ q, i = q + 624 := ⟨i - 624, by omega⟩
        rw [line_add, ih q (by omega), ih (q + 1) (by omega), ih (q + 397) (by omega)]
        decide
  have hw : ∀ i < 624, words (initByArray (keyOf k.natAbs)) i = words ⟨List.replicate 624 0, 624⟩ i := by
    intro i hi
    have h0 : words ⟨List.replicate 624 0, 624⟩ i = 0 := by
      rw [words_line hz, hline]
      decide
    rw [h0]
    exact hc i hi
  have hwin := words_inj (initByArray_valid (keyOf k.natAbs)) hz (initByArray_index _) rfl hw
  have hbit := congrArg Prod.fst hwin
  have e : (line (initByArray (keyOf k.natAbs)).mt 0).getLsbD 31 = (line (List.replicate 624 0) 0).getLsbD 31 := hbit
  obtain ⟨a, u, _, _, h3, _⟩ := seed_first (List.length_pos_iff.2 (keyOf_ne k.natAbs))
  rw [line_lt (by norm_num), h3, hline] at e
  revert e
  decide

example : pyRng.seed 2 = pyRng.seed 4294967298 := C110_twin (k := 2) le_rfl (by norm_num)
example : ∃ i < 624, pyRng.seed (0 : Nat) i ≠ pyRng.seed (1 : Nat) i := C110_distinct (by norm_num) (by norm_num) (by norm_num)

end SqPerc
