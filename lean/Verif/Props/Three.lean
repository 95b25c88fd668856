import Verif.Proof.Three
import Verif.Props.Variance
/-
C86: the exact means on the smallest lattice that can wrap.
-/
namespace SqPerc

variable {so : SetOrder}

theorem map_range_getElem {f : Nat → Nat} {l : List Nat} {N n v : Nat} (h : (List.range N).map f = l) (hv : l[n]? = some v) : f n = v := by
  rw [← h, List.getElem?_map] at hv
  obtain ⟨a, ha, rfl⟩ := Option.map_eq_some_iff.1 hv
  rw [List.getElem?_range (by
    by_contra hn
    rw [List.getElem?_eq_none (by simpa using hn)] at ha
    cases ha)] at ha
  rw [Option.some.inj ha]

/-- C86, the smallest lattice with wrapping: the mean of every row of the critical file of L0 is exactly `5/9`, … -/
theorem C86_three_pc {E : Nat} (pl : Bool) (ctor : Nat → Nat) (steps : Nat → Draw) {fuel : Nat} (hf : 45 < fuel) {i : Nat} (hi : i < E) :
    ∃ (table : (Fin E → DrawVec 9) → List (List ℝ)) (crit : (Fin E → DrawVec 9) → List (CritRow ℝ)) (pc : (Fin E → DrawVec 9) → ℝ),
      (∀ x, runEnsemble (realEnv so) .l0 pl 3 ctor (ensembleDraws steps fuel x) = .ok (table x, crit x)) ∧
      (∀ x, (crit x)[i]?.map (·.pc) = some (pc x)) ∧ meanOf pc = 5 / 9 := by
  obtain ⟨table, crit, pc, h1, h2, _, h3⟩ := C69_critical (so := so) (L := 3) (le_refl 3) pl ctor steps (fuel := fuel) (by omega) hi
  refine ⟨table, crit, pc, h1, h2, ?_⟩
  rw [h3]
  have h : ∀ n v : Nat, ([0, 0, 0, 6, 36, 81, 84, 36, 9, 1] : List Nat)[n]? = some v → (micro 9 n fun T => ind (Wraps 3 (· ∈ T))) = (v : ℝ) / Nat.choose 9 n := by
    intro n v hv
    rw [micro_count (b := loop3) fun T hT => wraps3_iff hT, map_range_getElem wraps3_count hv]
  simp only [Nat.reduceMul, Finset.sum_range_succ, Finset.sum_range_zero, h 0 0 rfl, h 1 0 rfl, h 2 0 rfl, h 3 6 rfl, h 4 36 rfl, h 5 81 rfl, h 6 84 rfl,
    h 7 36 rfl, h 8 9 rfl]
  norm_num [Nat.choose]

/-- C86: … and the rows of the shortest-path file have the means `5/9` and `71/126`. -/
theorem C86_three_sp {E : Nat} (ctor : Nat → Nat) (steps : Nat → Draw) {fuel : Nat} (hf : 9 < fuel) {i : Nat} (hi : i < E) :
    ∃ (rows : (Fin E → DrawVec 9) → List (ℝ × ℝ)) (pc sp : (Fin E → DrawVec 9) → ℝ),
      (∀ x, spEnsemble (realEnv so) 3 ctor (ensembleDraws steps fuel x) = .ok (rows x)) ∧
      (∀ x, (rows x)[i]? = some (pc x, sp x)) ∧ meanOf pc = 5 / 9 ∧ meanOf sp = 71 / 126 := by
  obtain ⟨rows, pc, h1, h2, _, h3⟩ := C69_shortest_path (so := so) (L := 3) (le_refl 3) ctor steps (fuel := fuel) (by omega) hi
  obtain ⟨rows', sp, g1, g2, _, g3⟩ := C86_small (so := so) (L := 3) (le_refl 3) (by omega) ctor steps (fuel := fuel) (by omega) hi
  have e : ∀ x, rows' x = rows x := fun x => Except.ok.inj ((g1 x).symm.trans (h1 x))
  refine ⟨rows, pc, sp, h1, fun x => ?_, ?_, ?_⟩
  · have a := h2 x
    have b := g2 x
    rw [e x] at b
    cases hr : (rows x)[i]? with
    | none => rw [hr] at a; cases a
    | some r =>
      rw [hr] at a b
      rw [← Option.some.inj a, ← Option.some.inj b]
  · rw [h3]
    have h : ∀ n v : Nat, ([0, 0, 0, 6, 36, 81, 84, 36, 9, 1] : List Nat)[n]? = some v →
        (micro 9 n fun T => ind (Wraps 3 (· ∈ T))) = (v : ℝ) / Nat.choose 9 n := by
      intro n v hv
      rw [micro_count (b := loop3) fun T hT => wraps3_iff hT, map_range_getElem wraps3_count hv]
    simp only [Nat.reduceMul, Finset.sum_range_succ, Finset.sum_range_zero, h 0 0 rfl, h 1 0 rfl, h 2 0 rfl, h 3 6 rfl, h 4 36 rfl, h 5 81 rfl, h 6 84 rfl,
      h 7 36 rfl, h 8 9 rfl]
    norm_num [Nat.choose]
  · rw [g3]
    have h : ∀ n v : Nat, ([0, 0, 0, 6, 36, 81, 78, 36, 9, 1] : List Nat)[n]? = some v →
        (micro 9 n fun T => ind (HasLine 3 (· ∈ T))) = (v : ℝ) / Nat.choose 9 n := by
      intro n v hv
      rw [micro_count (b := line3) fun T _ => line3_iff, map_range_getElem line3_count hv]
    simp only [Nat.reduceMul, Finset.sum_range_succ, Finset.sum_range_zero, h 0 0 rfl, h 1 0 rfl, h 2 0 rfl, h 3 6 rfl, h 4 36 rfl, h 5 81 rfl, h 6 78 rfl,
      h 7 36 rfl, h 8 9 rfl]
    norm_num [Nat.choose]

/-- C87, the smallest lattice with wrapping: the mean critical point of `E` realisations has variance `2 / (189 E)`. -/
theorem C87_three {E : Nat} (hE : 0 < E) (pl : Bool) (ctor : Nat → Nat) (steps : Nat → Draw) {fuel : Nat} (hf : 45 < fuel) :
    ∃ (table : (Fin E → DrawVec 9) → List (List ℝ)) (crit : (Fin E → DrawVec 9) → List (CritRow ℝ)),
      (∀ x, runEnsemble (realEnv so) .l0 pl 3 ctor (ensembleDraws steps fuel x) = .ok (table x, crit x)) ∧
      varOf (fun x => meanPc (crit x)) = 2 / (189 * E) := by
  obtain ⟨table, crit, h1, h2⟩ := C87_pc_variance (so := so) (L := 3) (le_refl 3) hE pl ctor steps (fuel := fuel) (by omega)
  refine ⟨table, crit, h1, ?_⟩
  rw [h2]
  have h : ∀ n v : Nat, ([0, 0, 0, 6, 36, 81, 84, 36, 9, 1] : List Nat)[n]? = some v → (micro 9 n fun T => ind (Wraps 3 (· ∈ T))) = (v : ℝ) / Nat.choose 9 n := by
    intro n v hv
    rw [micro_count (b := loop3) fun T hT => wraps3_iff hT, map_range_getElem wraps3_count hv]
  simp only [Nat.reduceMul, Finset.sum_range_succ, Finset.sum_range_zero, h 0 0 rfl, h 1 0 rfl, h 2 0 rfl, h 3 6 rfl, h 4 36 rfl, h 5 81 rfl, h 6 84 rfl,
    h 7 36 rfl, h 8 9 rfl]
  have hE0 : (E : ℝ) ≠ 0 := by exact_mod_cast hE.ne'
  norm_num [Nat.choose]
  field_simp
  norm_num

end SqPerc
