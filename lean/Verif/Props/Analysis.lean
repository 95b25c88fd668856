import Verif.Model.Misc
import Verif.Model.Elements
import Mathlib.Algebra.Order.Group.Int
import Mathlib.Algebra.Order.Group.Basic
import Mathlib.Algebra.Order.Ring.Rat
import Mathlib.Data.Int.Order.Basic
import Mathlib.Tactic.Linarith
import Mathlib.Tactic.NormNum
import Mathlib.Tactic.Ring
/-
C44 (find_intersection), C45 (index arithmetic), C49 (print_duration)
-/
namespace SqPerc

/-! ## C44 `find_intersection` -/

section lines
variable {α : Type} [AddCommGroup α] [LinearOrder α]

/-- Specification: which of two numbers is larger, `1` for the first, `-1` for the second, `0` for neither. -/
def side (x y : α) : Int := if x < y then -1 else if y < x then 1 else 0

/-- Specification: how much the side on which curve `x` lies of curve `y` changes from point `j` to point `j + 1`; `2` for a strict
crossing, `1` when exactly one of the two points is common to the curves, `0` otherwise. -/
def jump (x y : Nat → α) (j : Nat) : Nat := (side (x (j + 1)) (y (j + 1)) - side (x j) (y j)).natAbs

/-- Specification: curve `x` is strictly on one side of `y` at point `j` and strictly on the other one at point `j + 1`. -/
def CurvesCross (x y : Nat → α) (j : Nat) : Prop :=
  (x j < y j ∧ y (j + 1) < x (j + 1)) ∨ (y j < x j ∧ x (j + 1) < y (j + 1))

theorem npSign_sub [IsOrderedAddMonoid α] (x y : α) : npSign (x - y) = side x y := by
  unfold npSign side
  simp only [sub_neg, sub_pos]

theorem argmaxFrom_spec (xs : List Nat) : ∀ (i best pos : Nat) (f : Nat → Nat),
    (∀ k (h : k < xs.length), f (i + k) = xs[k]) → pos < i → f pos = best → (∀ j < i, f j ≤ best) → (∀ j < pos, f j < best) →
    argmaxFrom xs i best pos < i + xs.length ∧
      (∀ j < i + xs.length, f j ≤ f (argmaxFrom xs i best pos)) ∧
      (∀ j < argmaxFrom xs i best pos, f j < f (argmaxFrom xs i best pos)) := by
  induction xs with
  | nil =>
    intro i best pos f hf hp hb h1 h2
    simp only [argmaxFrom, List.length_nil, Nat.add_zero]
    exact ⟨hp, fun j hj => hb ▸ h1 j hj, fun j hj => hb ▸ h2 j hj⟩
  | cons x xs ih =>
    intro i best pos f hf hp hb h1 h2
    have hx : f i = x := hf 0 (by simp)
    have hf' : ∀ k (h : k < xs.length), f (i + 1 + k) = xs[k] := by
      intro k h
      have h' : k + 1 < (x :: xs).length := by simpa using h
      have := hf (k + 1) h'
      rw [show i + 1 + k = i + (k + 1) by omega, this]
      rfl
    have hlen : i + (x :: xs).length = i + 1 + xs.length := by simp only [List.length_cons]; omega
    rw [hlen]
    unfold argmaxFrom
    split
    · rename_i hlt
      refine ih (i + 1) x i f hf' (by omega) hx ?_ ?_
      · intro j hj
        rcases Nat.lt_succ_iff_lt_or_eq.1 hj with h | h
        · exact (h1 j h).trans hlt.le
        · rw [h, hx]
      · intro j hj; exact lt_of_le_of_lt (h1 j hj) hlt
    · rename_i hlt
      refine ih (i + 1) best pos f hf' (by omega) hb ?_ h2
      intro j hj
      rcases Nat.lt_succ_iff_lt_or_eq.1 hj with h | h
      · exact h1 j h
      · rw [h, hx]; omega

theorem npDiff_length : ∀ l : List Int, (npDiff l).length = l.length - 1
  | [] => rfl
  | [_] => rfl
  | a :: b :: rest => by
    have := npDiff_length (b :: rest)
    simp only [npDiff, List.length_cons] at this ⊢
    omega

theorem npDiff_get : ∀ (l : List Int) (k : Nat) (h : k < (npDiff l).length) (h1 : k + 1 < l.length),
    (npDiff l)[k] = l[k + 1] - l[k]
  | [], _, h, _ => by simp [npDiff] at h
  | [_], _, h, _ => by simp [npDiff] at h
  | a :: b :: rest, 0, _, _ => rfl
  | a :: b :: rest, k + 1, h, h1 => by
    have := npDiff_get (b :: rest) k (by simpa [npDiff] using h) (by simpa using h1)
    simpa [npDiff] using this

/-- The curve of `n` points given by a function. -/
def curve (x : Nat → α) (n : Nat) : List α := (List.range n).map x

theorem findIntersection_curves [IsOrderedAddMonoid α] (x y : Nat → α) (n : Nat) :
    findIntersection (curve x n) (curve y n) = npArgmax ((List.range (n - 1)).map (jump x y)) := by
  unfold findIntersection npSub
  simp only [curve, List.length_map, List.length_range, if_true]
  show npArgmax _ = _
  congr 1
  apply List.ext_getElem
  · simp [npDiff_length]
  · intro k h1 h2
    have hk : k + 1 < n := by simp at h2; omega
    simp only [List.getElem_map, List.getElem_range]
    have hl : k + 1 < (((List.range n).map x |>.zipWith (· - ·) ((List.range n).map y)).map npSign).length := by simp; omega
    rw [npDiff_get _ _ _ hl]
    simp only [List.getElem_map, List.getElem_zipWith, List.getElem_range, npSign_sub]
    rfl

/-- **C44** in general: on two curves of `n ≥ 2` points the returned position is the first one with the largest change of side. -/
theorem C44_first_largest_jump [IsOrderedAddMonoid α] (x y : Nat → α) (n : Nat) (hn : 2 ≤ n) :
    ∃ i, findIntersection (curve x n) (curve y n) = .ok i ∧ i + 1 < n ∧
      (∀ j, j + 1 < n → jump x y j ≤ jump x y i) ∧ (∀ j < i, jump x y j < jump x y i) := by
  rw [findIntersection_curves]
  obtain ⟨m, rfl⟩ : ∃ m, n = m + 2 := ⟨n - 2, by omega⟩
  have hr : (List.range (m + 2 - 1)).map (jump x y) = jump x y 0 :: (List.range m).map fun k => jump x y (k + 1) := by
    rw [show m + 2 - 1 = m + 1 by omega, List.range_succ_eq_map]
    simp [List.map_map, Function.comp_def]
  rw [hr]
  obtain ⟨h1, h2, h3⟩ := argmaxFrom_spec ((List.range m).map fun k => jump x y (k + 1)) 1 (jump x y 0) 0 (jump x y)
    (by intro k h; simp [Nat.add_comm]) (by omega) rfl
    (by intro j hj; rw [show j = 0 by omega]) (by intro j hj; omega)
  simp only [List.length_map, List.length_range] at h1 h2
  exact ⟨_, rfl, by omega, fun j hj => h2 j (by omega), h3⟩

theorem jump_le_two (x y : Nat → α) (j : Nat) : jump x y j ≤ 2 := by
  unfold jump side
  split_ifs <;> decide

theorem jump_eq_two (x y : Nat → α) (j : Nat) : jump x y j = 2 ↔ CurvesCross x y j := by
  unfold jump side CurvesCross
  constructor
  · intro h
    split_ifs at h with h1 h2 h3 h4 h5 h6 h7 <;> first | (exfalso; revert h; decide) | skip
    · exact .inr ⟨by assumption, by assumption⟩
    · exact .inl ⟨by assumption, by assumption⟩
  · rintro (⟨h1, h2⟩ | ⟨h1, h2⟩)
    · rw [if_neg (not_lt.2 h2.le), if_pos h2, if_pos h1]; rfl
    · rw [if_pos h2, if_neg (not_lt.2 h1.le), if_pos h1]; rfl

/-- **C44**: when the curves cross strictly somewhere, the returned position is the first strict crossing. -/
theorem C44_first_crossing [IsOrderedAddMonoid α] (x y : Nat → α) (n i : Nat) (hi : i + 1 < n) (hc : CurvesCross x y i)
    (hf : ∀ j < i, ¬ CurvesCross x y j) : findIntersection (curve x n) (curve y n) = .ok i := by
  obtain ⟨k, hk, hkn, hmax, hfirst⟩ := C44_first_largest_jump x y n (by omega)
  have hki : CurvesCross x y k := by
    rw [← jump_eq_two]
    have := hmax i hi
    rw [(jump_eq_two x y i).2 hc] at this
    exact le_antisymm (jump_le_two x y k) this
  have : k = i := by
    rcases lt_trichotomy k i with h | h | h
    · exact absurd hki (hf k h)
    · exact h
    · have := hfirst i h
      rw [(jump_eq_two x y i).2 hc] at this
      exact absurd (jump_le_two x y k) (by omega)
  rw [hk, this]

/-- **C44**: with a single crossing, that is the returned position (whatever the curves do elsewhere, provided it is no other crossing). -/
theorem C44_single_crossing [IsOrderedAddMonoid α] (x y : Nat → α) (n i : Nat) (hi : i + 1 < n) (hc : CurvesCross x y i)
    (hu : ∀ j, j + 1 < n → CurvesCross x y j → j = i) : findIntersection (curve x n) (curve y n) = .ok i :=
  C44_first_crossing x y n i hi hc fun j hj h => by have := hu j (by omega) h; omega

/-- **C44**: curves that are on the same side at all points give position 0, which is not a crossing. -/
theorem C44_no_change [IsOrderedAddMonoid α] (x y : Nat → α) (n : Nat) (hn : 2 ≤ n)
    (hs : ∀ j < n, side (x j) (y j) = side (x 0) (y 0)) : findIntersection (curve x n) (curve y n) = .ok 0 := by
  obtain ⟨k, hk, hkn, -, hfirst⟩ := C44_first_largest_jump x y n hn
  have h0 : ∀ j, j + 1 < n → jump x y j = 0 := by
    intro j hj
    unfold jump
    rw [hs (j + 1) hj, hs j (by omega)]
    simp
  rcases Nat.eq_zero_or_pos k with rfl | hpos
  · exact hk
  · have := hfirst 0 hpos
    rw [h0 k hkn] at this
    omega

/-- **C44**: without a strict crossing but with a common point the returned position is next to the first end of a common stretch: one of
the points `i`, `i + 1` is common and the other one is not. -/
theorem C44_touching [IsOrderedAddMonoid α] (x y : Nat → α) (n : Nat) (hn : 2 ≤ n) (hc : ∀ j, j + 1 < n → ¬ CurvesCross x y j)
    (hs : ∃ j, j + 1 < n ∧ ¬ (x j = y j ↔ x (j + 1) = y (j + 1))) :
    ∃ i, findIntersection (curve x n) (curve y n) = .ok i ∧ i + 1 < n ∧ ¬ (x i = y i ↔ x (i + 1) = y (i + 1)) ∧
      ∀ j < i, (x j = y j ↔ x (j + 1) = y (j + 1)) := by
  have key : ∀ j, j + 1 < n → (jump x y j = 0 ↔ (x j = y j ↔ x (j + 1) = y (j + 1))) := by
    intro j hj
    have hj' := hc j hj
    unfold CurvesCross at hj'
    unfold jump side
    rcases lt_trichotomy (x j) (y j) with h | h | h <;> rcases lt_trichotomy (x (j + 1)) (y (j + 1)) with h' | h' | h'
    · simp [h, h', h.ne, h'.ne]
    · simp [h, h', h.ne]
    · exact absurd (.inl ⟨h, h'⟩) hj'
    · simp [h, h', h'.ne]
    · simp [h, h']
    · simp [h, h', h'.ne', not_lt.2 h'.le]
    · exact absurd (.inr ⟨h, h'⟩) hj'
    · simp [h, h', h.ne', not_lt.2 h.le]
    · simp [h, h', h.ne', h'.ne', not_lt.2 h.le, not_lt.2 h'.le]
  obtain ⟨k, hk, hkn, hmax, hfirst⟩ := C44_first_largest_jump x y n hn
  have hle : ∀ j, j + 1 < n → jump x y j ≤ 1 := by
    intro j hj
    have h2 := jump_le_two x y j
    have : jump x y j ≠ 2 := fun h => hc j hj ((jump_eq_two x y j).1 h)
    omega
  obtain ⟨m, hm, hmd⟩ := hs
  have hk1 : jump x y k ≠ 0 := by
    intro h
    have := hmax m hm
    exact hmd ((key m hm).1 (by omega))
  refine ⟨k, hk, hkn, fun h => hk1 ((key k hkn).2 h), fun j hj => (key j (by omega)).1 ?_⟩
  have := hfirst j hj
  have := hle k hkn
  omega

/-- **C44**: fewer than two points raise ValueError. -/
theorem C44_short_raises (x y : List α) (hl : x.length = y.length) (h : x.length < 2) :
    findIntersection x y = .error .valueError := by
  match x, y with
  | [], [] => rfl
  | [_], [_] => rfl
  | _ :: _ :: _, _ => simp only [List.length_cons] at h; omega
  | [], _ :: _ => simp at hl
  | [_], [] => simp at hl
  | [_], _ :: _ :: _ => simp at hl

/-- **C44**: curves of different lengths raise ValueError unless one of them is a single point, which is compared with all points of the
other curve. -/
theorem C44_lengths (x y : List α) (hl : x.length ≠ y.length) (hx : x.length ≠ 1) (hy : y.length ≠ 1) :
    findIntersection x y = .error .valueError := by
  have : npSub x y = .error .valueError := by
    unfold npSub
    rw [if_neg hl]
    split
    · simp at hx
    · simp at hy
    · rfl
  unfold findIntersection
  rw [this]
  rfl

/-- **C44**: a curve that consists of a single point is compared with all points of the other curve, as if it were constant. -/
theorem C44_single_point (a : α) (y : Nat → α) (n : Nat) (hn : n ≠ 1) :
    findIntersection [a] (curve y n) = findIntersection (curve (fun _ => a) n) (curve y n) ∧
    findIntersection (curve y n) [a] = findIntersection (curve y n) (curve (fun _ => a) n) := by
  have e1 : npSub [a] (curve y n) = npSub (curve (fun _ => a) n) (curve y n) := by
    unfold npSub curve
    rw [if_neg (by simp; omega), if_pos (by simp)]
    simp only [List.map_map, List.zipWith_map_left, List.zipWith_map_right, List.zipWith_self, Function.comp_def]
  have e2 : npSub (curve y n) [a] = npSub (curve y n) (curve (fun _ => a) n) := by
    have h1 : (curve y n).length ≠ [a].length := by simp [curve]; omega
    have h2 : ∀ l : List α, l.length ≠ 1 → npSub l [a] = .ok (l.map fun b => b - a) := by
      intro l hl
      match l with
      | [] => rfl
      | [_] => exact absurd rfl hl
      | _ :: _ :: _ => simp [npSub]
    rw [h2 _ (by simpa using h1)]
    unfold npSub curve
    rw [if_pos (by simp)]
    simp only [List.map_map, List.zipWith_map_left, List.zipWith_map_right, List.zipWith_self, Function.comp_def]
  unfold findIntersection
  rw [e1, e2]
  exact ⟨rfl, rfl⟩

omit [AddCommGroup α] [LinearOrder α] in
/-- Any two lists of equal length are curves, so the theorems above cover all arguments. -/
theorem eq_curve [Inhabited α] (l : List α) : l = curve (fun i => l.getD i default) l.length := by
  apply List.ext_getElem
  · simp [curve]
  · intro i h1 h2
    simp [curve, h1]

/-- **C44** with a column argument: on two tables of equally many rows the columns are compared. -/
theorem C44_column [IsOrderedAddMonoid α] (t1 t2 : Nat → List α) (x y : Nat → α) (c : Nat) (n i : Nat)
    (h1 : ∀ j < n, (t1 j)[c]? = some (x j)) (h2 : ∀ j < n, (t2 j)[c]? = some (y j))
    (hi : i + 1 < n) (hc : CurvesCross x y i) (hf : ∀ j < i, ¬ CurvesCross x y j) :
    findIntersectionCol ((List.range n).map t1) ((List.range n).map t2) (c : Int) = .ok i := by
  have hm : ∀ (t : Nat → List α) (z : Nat → α) (l : List Nat), (∀ j ∈ l, (t j)[c]? = some (z j)) →
      (l.map t).mapM (fun row => pyGetI row (c : Int)) = (.ok (l.map z) : Py (List α)) := by
    intro t z l
    induction l with
    | nil => intro _; rfl
    | cons a l ih =>
      intro h
      have ha : pyGetI (t a) (c : Int) = .ok (z a) := by
        have := h a (by simp)
        simp [pyGetI, pyGet, this]
      simp only [List.map_cons, List.mapM_cons, ha, ih fun j hj => h j (by simp [hj]), bind, Except.bind, pure, Except.pure]
  unfold findIntersectionCol
  rw [hm t1 x _ fun j hj => h1 j (List.mem_range.1 hj), hm t2 y _ fun j hj => h2 j (List.mem_range.1 hj)]
  exact C44_first_crossing x y n i hi hc hf

end lines

/-- The hypotheses of the crossing theorems on four points: `0, 1, 5, 6` against `2, 3, 4, 4` cross between points 1 and 2. -/
example : CurvesCross (fun j => ([0, 1, 5, 6] : List Int).getD j 0) (fun j => [2, 3, 4, 4].getD j 0) 1 ∧
    (∀ j, j + 1 < 4 → CurvesCross (fun j => ([0, 1, 5, 6] : List Int).getD j 0) (fun j => [2, 3, 4, 4].getD j 0) j → j = 1) ∧
    findIntersection ([0, 1, 5, 6] : List Int) [2, 3, 4, 4] = .ok 1 := by
  refine ⟨by unfold CurvesCross; decide, ?_, by decide⟩
  intro j hj h
  have : j = 0 ∨ j = 1 ∨ j = 2 := by omega
  rcases this with rfl | rfl | rfl <;> revert h <;> unfold CurvesCross <;> decide

/-- Curves that meet in a point: `0, 1, 2` against `2, 1, 0` change side at point 1, and the position returned is 0; `0, 1, 0` against
`2, 1, 2` only touch, and the position is 0 as well. -/
example : findIntersection ([0, 1, 2] : List Int) [2, 1, 0] = .ok 0 ∧
    findIntersection ([0, 1, 0] : List Int) [2, 1, 2] = .ok 0 := by decide

/-! ## C45 index arithmetic -/

/-- **C45**: addition and subtraction act on the two components separately. -/
theorem C45_componentwise (a b : Idx) :
    (a.add b).c1 = a.c1 + b.c1 ∧ (a.add b).c2 = a.c2 + b.c2 ∧ (a.sub b).c1 = a.c1 - b.c1 ∧ (a.sub b).c2 = a.c2 - b.c2 :=
  ⟨rfl, rfl, rfl, rfl⟩

/-- **C45**: they are inverse to each other, addition is commutative and associative, and `RelativeIndex()` is neutral. -/
theorem C45_group (a b c : Idx) : (a.add b).sub b = a ∧ (a.sub b).add b = a ∧ a.add b = b.add a ∧
    (a.add b).add c = a.add (b.add c) ∧ a.add Idx.zero = a ∧ a.sub a = Idx.zero ∧ a.sub (b.sub c) = (a.sub b).add c := by
  obtain ⟨a1, a2⟩ := a
  obtain ⟨b1, b2⟩ := b
  obtain ⟨c1, c2⟩ := c
  simp only [Idx.add, Idx.sub, Idx.zero, Idx.mk.injEq]
  omega

/-- Specification: an index with exactly one component zero. -/
def AxisParallel (a : Idx) : Prop := (a.c1 = 0 ∧ a.c2 ≠ 0) ∨ (a.c1 ≠ 0 ∧ a.c2 = 0)

theorem floorDiv_abs_pos {z : Int} (h : 0 < z) : Int.fdiv z z.natAbs = 1 := by
  rw [Int.natAbs_of_nonneg h.le]
  exact Int.fdiv_self (by omega)

theorem floorDiv_abs_neg {z : Int} (h : z < 0) : Int.fdiv z z.natAbs = -1 := by
  have h1 : ((z.natAbs : Nat) : Int) = -z := by omega
  rw [h1, Int.fdiv_eq_ediv_of_nonneg _ (by omega : (0 : Int) ≤ -z)]
  rw [Int.ediv_neg, Int.ediv_self (by omega)]

/-- **C45**: an axis-parallel non-zero index is a positive multiple of its normalised form, which is a unit vector along an axis. -/
theorem C45_normalize_axis (a : Idx) (h : AxisParallel a) :
    a.normalize.c1.natAbs + a.normalize.c2.natAbs = 1 ∧
      ∃ k : Int, 0 < k ∧ a.c1 = k * a.normalize.c1 ∧ a.c2 = k * a.normalize.c2 := by
  obtain ⟨a1, a2⟩ := a
  rcases h with ⟨h1, h2⟩ | ⟨h1, h2⟩ <;> simp only at h1 h2
  · subst h1
    simp only [Idx.normalize, h2, ne_eq, not_false_eq_true, and_self, if_true]
    rcases lt_or_gt_of_ne h2 with h | h
    · rw [floorDiv_abs_neg h]
      exact ⟨rfl, -a2, by omega, by simp, by simp⟩
    · rw [floorDiv_abs_pos h]
      exact ⟨rfl, a2, h, by simp, by simp⟩
  · subst h2
    simp only [Idx.normalize, h1, ne_eq, not_false_eq_true, and_self, if_true, not_true_eq_false, if_false]
    rcases lt_or_gt_of_ne h1 with h | h
    · rw [floorDiv_abs_neg h]
      exact ⟨rfl, -a1, by omega, by simp, by simp⟩
    · rw [floorDiv_abs_pos h]
      exact ⟨rfl, a1, h, by simp, by simp⟩

/-- **C45**: every other index is left unchanged; in particular the difference of two diagonal neighbours is not normalised. -/
theorem C45_normalize_other (a : Idx) (h : ¬ AxisParallel a) : a.normalize = a := by
  unfold AxisParallel at h
  unfold Idx.normalize
  rw [if_neg (fun h' => h (.inl h')), if_neg (fun h' => h (.inr h'))]

/-- **C45**: normalising twice is normalising once. -/
theorem C45_normalize_idem (a : Idx) : a.normalize.normalize = a.normalize := by
  by_cases h : AxisParallel a
  · obtain ⟨h1, -⟩ := C45_normalize_axis a h
    generalize a.normalize = b at h1
    obtain ⟨b1, b2⟩ := b
    simp only at h1
    have : (b1 = 0 ∧ b2 = 1) ∨ (b1 = 0 ∧ b2 = -1) ∨ (b1 = 1 ∧ b2 = 0) ∨ (b1 = -1 ∧ b2 = 0) := by omega
    rcases this with ⟨rfl, rfl⟩ | ⟨rfl, rfl⟩ | ⟨rfl, rfl⟩ | ⟨rfl, rfl⟩ <;> rfl
  · rw [C45_normalize_other a h, C45_normalize_other a h]

/-- `(0, -7)` is axis-parallel and becomes `(0, -1)`; `(2, -2)` and `(0, 0)` are not and stay. -/
example : AxisParallel ⟨0, -7⟩ ∧ Idx.normalize ⟨0, -7⟩ = ⟨0, -1⟩ ∧ ¬ AxisParallel ⟨2, -2⟩ ∧ Idx.normalize ⟨2, -2⟩ = ⟨2, -2⟩ ∧
    ¬ AxisParallel ⟨0, 0⟩ := by unfold AxisParallel; decide

/-! ## C49 `print_duration` -/

theorem pyInt_bounds {x : ℚ} (h : 0 ≤ x) : (pyInt x : ℚ) ≤ x ∧ x < pyInt x + 1 := by
  unfold pyInt
  rw [if_pos h]
  exact ⟨Int.floor_le x, Int.lt_floor_add_one x⟩

theorem fdiv_bounds (z : Int) (c : Nat) (hc : 0 < c) : Int.fdiv z c * c ≤ z ∧ z < Int.fdiv z c * c + c := by
  rw [Int.fdiv_eq_ediv_of_nonneg _ (by omega : (0 : Int) ≤ c)]
  have h1 := Int.emod_add_mul_ediv z c
  have h2 := Int.emod_nonneg z (by omega : (c : Int) ≠ 0)
  have h3 := Int.emod_lt_of_pos z (by omega : (0 : Int) < c)
  rw [Int.mul_comm] at h1
  constructor <;> omega

/-- **C49**: for `t ≥ 0` the printed hours, minutes and seconds add up to `t`, and minutes and seconds are in `[0, 60)`. -/
theorem C49_decomposes (t : ℚ) (ht : 0 ≤ t) :
    (3600 * ((printDuration t).1 : ℚ) + 60 * (printDuration t).2.1 + (printDuration t).2.2 = t) ∧
      0 ≤ (printDuration t).1 ∧ 0 ≤ (printDuration t).2.1 ∧ (printDuration t).2.1 < 60 ∧
      0 ≤ (printDuration t).2.2 ∧ (printDuration t).2.2 < 60 := by
  obtain ⟨h1, h2⟩ := pyInt_bounds ht
  have hp : 0 ≤ pyInt t := by
    unfold pyInt
    rw [if_pos ht]
    exact Int.floor_nonneg.2 ht
  obtain ⟨h3, h4⟩ := fdiv_bounds (pyInt t) 3600 (by norm_num)
  simp only [printDuration]
  have e3600 : ((3600 : Nat) : Int) = 3600 := rfl
  rw [e3600] at h3 h4
  generalize Int.fdiv (pyInt t) 3600 = hhh at *
  have hq3 : (hhh : ℚ) * 3600 ≤ pyInt t := by exact_mod_cast h3
  have hq4 : (pyInt t : ℚ) + 1 ≤ hhh * 3600 + 3600 := by exact_mod_cast h4
  have hr0 : 0 ≤ t - (hhh : ℚ) * 3600 := by linarith
  have hr1 : t - (hhh : ℚ) * 3600 < 3600 := by linarith
  have hs : t = 3600 * (hhh : ℚ) + (t - (hhh : ℚ) * 3600) := by ring
  generalize t - (hhh : ℚ) * 3600 = r at *
  obtain ⟨k1, k2⟩ := pyInt_bounds hr0
  have kp : 0 ≤ pyInt r := by
    unfold pyInt
    rw [if_pos hr0]
    exact Int.floor_nonneg.2 hr0
  have kl : pyInt r < 3600 := by
    have : (pyInt r : ℚ) < 3600 := by linarith
    exact_mod_cast this
  obtain ⟨k3, k4⟩ := fdiv_bounds (pyInt r) 60 (by norm_num)
  have e60 : ((60 : Nat) : Int) = 60 := rfl
  rw [e60] at k3 k4
  generalize Int.fdiv (pyInt r) 60 = mmm at *
  have kq3 : (mmm : ℚ) * 60 ≤ pyInt r := by exact_mod_cast k3
  have kq4 : (pyInt r : ℚ) + 1 ≤ mmm * 60 + 60 := by exact_mod_cast k4
  refine ⟨by rw [hs]; ring, by omega, by omega, by omega, by linarith, by linarith⟩

/-- **C49** determines the output: no other hours, minutes and seconds satisfy the equation and the bounds. -/
theorem C49_unique (t : ℚ) (ht : 0 ≤ t) (h m : Int) (s : ℚ) (he : 3600 * (h : ℚ) + 60 * m + s = t)
    (hm0 : 0 ≤ m) (hm : m < 60) (hs0 : 0 ≤ s) (hs : s < 60) : printDuration t = (h, m, s) := by
  obtain ⟨h1, -, h3, h4, h5, h6⟩ := C49_decomposes t ht
  generalize printDuration t = x at *
  obtain ⟨a, b, c⟩ := x
  simp only at h1 h3 h4 h5 h6
  have e : ((60 * (60 * a + b) - 60 * (60 * h + m) : Int) : ℚ) = s - c := by push_cast; linarith
  have l1 : ((60 * (60 * a + b) - 60 * (60 * h + m) : Int) : ℚ) < ((60 : Int) : ℚ) := by rw [e]; push_cast; linarith
  have l2 : ((-60 : Int) : ℚ) < ((60 * (60 * a + b) - 60 * (60 * h + m) : Int) : ℚ) := by rw [e]; push_cast; linarith
  have l1' := Int.cast_lt.1 l1
  have l2' := Int.cast_lt.1 l2
  have ha : a = h := by omega
  have hb : b = m := by omega
  subst ha hb
  have : c = s := by linarith
  rw [this]

/-- **C49** before the epoch: for negative times the numbers still add up, but they need not be in range; `-1/2` seconds print as
`0h 0m -0.5s`. -/
theorem C49_sum_always (t : ℚ) :
    3600 * ((printDuration t).1 : ℚ) + 60 * (printDuration t).2.1 + (printDuration t).2.2 = t := by
  simp only [printDuration]
  ring

/-- 7322.5 seconds are 2 h 2 min 2.5 s. -/
example : printDuration (14645 / 2) = (2, 2, 5 / 2) :=
  C49_unique _ (by norm_num) 2 2 _ (by norm_num) (by norm_num) (by norm_num) (by norm_num) (by norm_num)

end SqPerc
