import Verif.Model.Lines
import Verif.Props.Analysis
import Mathlib.Tactic.FieldSimp
import Mathlib.Algebra.Order.Field.Basic
/-
C84: the lines of source_py/analyze/lines.py and the plotting variant of `find_intersection`.
-/
namespace SqPerc

theorem npSub_eq {α : Type} [AddCommGroup α] [LinearOrder α] {x y : List α} (h : x.length = y.length) :
    npSub x y = .ok (List.zipWith (· - ·) x y) := by
  unfold npSub; exact if_pos h

section
variable {K : Type} [Field K] [LinearOrder K] [IsStrictOrderedRing K]

/-- The points of `linspace` in exact arithmetic. -/
theorem npLinspace_eq (a b : K) {n : Nat} (hn : 2 ≤ n) :
    npLinspace a b n = .ok ((List.range n).map fun i : Nat => a + i * ((b - a) / ((n : K) - 1))) := by
  have h1 : (n : K) - 1 ≠ 0 := by
    have : (2 : K) ≤ n := by exact_mod_cast hn
    linarith
  rw [npLinspace, if_neg (by omega), Int.toNat_natCast]
  congr 1
  apply List.map_congr_left
  intro i hi
  have e : (((n : Int) - 1 : Int) : K) = (n : K) - 1 := by push_cast; rfl
  split
  · rename_i h
    have hi' : (i : K) = (n : K) - 1 := by
      rw [← h.2]; push_cast; ring
    rw [hi']; field_simp; ring
  · rw [e, add_comm]

theorem vertical_eq (x a b : K) {n : Nat} (hn : 2 ≤ n) :
    drawVerticalLineAt x [a, b] n = .ok (curve (fun _ => x) n, curve (fun i => a + i * ((b - a) / ((n : K) - 1))) n) := by
  show (npLinspace a b n >>= fun yy => npOnes (K := K) n >>= fun ones => _) = _
  rw [npLinspace_eq a b hn]
  show (npOnes (K := K) (n : Int) >>= fun ones => _) = _
  rw [npOnes, if_neg (by omega)]
  show Except.ok _ = _
  congr 2
  simp [curve, List.map_const']

/-- C84: `draw_vertical_line_at(x, (a, b), n)` with `n ≥ 2` returns `n` points with abscissa `x` whose ordinates start at `a`, end at `b` and have
equal distances. -/
theorem C84_vertical (x a b : K) {n : Nat} (hn : 2 ≤ n) : ∃ yy : Nat → K, drawVerticalLineAt x [a, b] n = .ok (curve (fun _ => x) n, curve yy n) ∧
    yy 0 = a ∧ yy (n - 1) = b ∧ (∀ i, yy (i + 1) - yy i = (b - a) / ((n : K) - 1)) ∧ (a < b → ∀ i j, i < j → yy i < yy j) := by
  have h1 : (0 : K) < (n : K) - 1 := by
    have : (2 : K) ≤ n := by exact_mod_cast hn
    linarith
  refine ⟨fun i => a + i * ((b - a) / ((n : K) - 1)), vertical_eq x a b hn, by simp, ?_, ?_, ?_⟩
  · have : ((n - 1 : Nat) : K) = (n : K) - 1 := by rw [Nat.cast_sub (by omega)]; simp
    show a + _ * _ = b
    rw [this]; field_simp; ring
  · intro i; push_cast; ring
  · intro hab i j hij
    have hd : 0 < (b - a) / ((n : K) - 1) := div_pos (sub_pos.2 hab) h1
    have : (i : K) < j := by exact_mod_cast hij
    have := mul_lt_mul_of_pos_right this hd
    show a + _ < a + _
    linarith

omit [LinearOrder K] [IsStrictOrderedRing K] in
/-- C84: `draw_horizontal_line_at(y, (a, b), n)` is the same with the axes exchanged. -/
theorem C84_horizontal (y : K) (r : List K) (n : Int) :
    drawHorizontalLineAt y r n = (drawVerticalLineAt y r n).map fun p => (p.2, p.1) := by
  unfold drawHorizontalLineAt drawVerticalLineAt
  cases pyGetI r 0 with
  | error e => rfl
  | ok a =>
    cases pyGetI r 1 with
    | error e => rfl
    | ok b =>
      show (npLinspace a b n >>= fun xx => npOnes (K := K) n >>= fun ones => _) = Except.map _ (npLinspace a b n >>= fun xx => npOnes (K := K) n >>= fun ones => _)
      cases npLinspace a b n with
      | error e => rfl
      | ok xx =>
        show (npOnes (K := K) n >>= fun ones => _) = Except.map _ (npOnes (K := K) n >>= fun ones => _)
        cases npOnes (K := K) n with
        | error e => rfl
        | ok o => rfl

omit [LinearOrder K] [IsStrictOrderedRing K] in
/-- C84: one point is the start of the range only, no points are possible, and a negative number raises ValueError. -/
theorem C84_few (x a b : K) : drawVerticalLineAt x [a, b] 1 = .ok ([x], [a]) ∧ drawVerticalLineAt x [a, b] 0 = .ok ([], []) ∧
    ∀ n : Int, n < 0 → drawVerticalLineAt x [a, b] n = .error .valueError := by
  refine ⟨?_, rfl, fun n hn => ?_⟩
  · show Except.ok _ = _
    simp
  · show (npLinspace a b n >>= _) = _
    rw [npLinspace, if_pos hn]; rfl

/-- C84: with its default range, the empty tuple, `draw_horizontal_line_at` raises IndexError for every value and size, while
`draw_vertical_line_at` gives 100 points from 0 to 1. -/
theorem C84_defaults (y : K) : (∀ n : Int, drawHorizontalLineAt y (horizontalDefaults (K := K)).1 n = .error .indexError) ∧
    drawHorizontalLineAt y (horizontalDefaults (K := K)).1 (horizontalDefaults (K := K)).2 = .error .indexError ∧
    drawVerticalLineAt y (verticalDefaults (K := K)).1 (verticalDefaults (K := K)).2 =
      .ok (curve (fun _ => y) 100, curve (fun i => (i : K) / 99) 100) := by
  refine ⟨fun n => rfl, rfl, ?_⟩
  show drawVerticalLineAt y [0, 1] ((100 : Nat) : Int) = _
  rw [vertical_eq y 0 1 (by omega)]
  congr 2
  unfold curve
  apply List.map_congr_left
  intro i _
  have : ((100 : Nat) : K) - 1 = 99 := by norm_num
  rw [this]; ring

/-- C84: looking for the intersection of a curve with the drawn horizontal line is looking for the intersection with its level. -/
theorem C84_level (x : Nat → K) (y a b : K) {n : Nat} (hn : 2 ≤ n) : ∃ xx yy, drawHorizontalLineAt y [a, b] n = .ok (xx, yy) ∧
    findIntersection (curve x n) yy = findIntersection (curve x n) [y] ∧
    (∀ i, i + 1 < n → (∀ j ≤ i, x j < y) → (y < x (i + 1)) → findIntersection (curve x n) yy = .ok i) := by
  obtain ⟨yy, h, _⟩ := C84_vertical y a b hn
  refine ⟨curve yy n, curve (fun _ => y) n, by rw [C84_horizontal, h]; rfl, ?_, ?_⟩
  · have e : npSub (curve x n) (curve (fun _ => y) n) = npSub (curve x n) [y] := by
      have sub1 : ∀ l : List K, 2 ≤ l.length → npSub l [y] = .ok (l.map fun a => a - y) := by
        intro l hl
        match l, hl with
        | _ :: _ :: l, _ => unfold npSub; exact if_neg (by simp)
      rw [sub1 _ (by simp [curve]; exact hn), npSub_eq (by simp [curve])]
      congr 1
      apply List.ext_getElem <;> simp [curve]
    unfold findIntersection
    rw [e]
  · intro i hi hlow hup
    exact C44_first_crossing x (fun _ => y) n i hi (.inl ⟨hlow i le_rfl, hup⟩) fun j hj hc => by
      rcases hc with h | h
      · exact absurd (hlow (j + 1) (by omega)) (not_lt.2 h.2.le)
      · exact absurd (hlow j (by omega)) (not_lt.2 h.1.le)

end

section
variable {α : Type} [AddCommGroup α] [LinearOrder α]

/-- C84: with its default argument `ax=None`, `find_intersection_and_plot` always raises and draws nothing: AttributeError, or ValueError if the
curves cannot be subtracted. -/
theorem C84_no_axes (x1 x2 : List α) : (findIntersectionAndPlot x1 x2 false).1 = [] ∧
    ((findIntersectionAndPlot x1 x2 false).2 = .error .attributeError ∨ (findIntersectionAndPlot x1 x2 false).2 = .error .valueError) ∧
    (x1.length = x2.length → (findIntersectionAndPlot x1 x2 false).2 = .error .attributeError) := by
  have sub : ∀ e, npSub x1 x2 = .error e → e = .valueError := by
    intro e h
    unfold npSub at h
    split at h
    · cases h
    · split at h
      · cases h
      · cases h
      · exact (Except.error.inj h).symm
  unfold findIntersectionAndPlot
  cases h : npSub x1 x2 with
  | error e =>
    obtain rfl := sub e h
    refine ⟨rfl, .inr rfl, fun hl => ?_⟩
    rw [npSub_eq hl] at h; cases h
  | ok d => exact ⟨rfl, .inl rfl, fun _ => rfl⟩

/-- C84: with axes, `find_intersection_and_plot` returns exactly what `find_intersection` returns (or raises what it raises). -/
theorem C84_plot_result (x1 x2 : List α) : (findIntersectionAndPlot x1 x2 true).2 = findIntersection x1 x2 := by
  unfold findIntersectionAndPlot findIntersection
  cases npSub x1 x2 <;> rfl

/-- C84: for curves of `n` points it draws two curves: the side on which the first curve lies at every point, and for every point from the second
on how the side changed there.  So the second curve is non-zero exactly where `find_intersection` sees a change, and the returned position is one
less than the abscissa of its first point of largest absolute value. -/
theorem C84_plots [IsOrderedAddMonoid α] (x y : Nat → α) (n : Nat) : ∃ ii sg jj dx, (findIntersectionAndPlot (curve x n) (curve y n) true).1 = [(ii, sg), (jj, dx)] ∧
    ii = List.range n ∧ sg = ii.map (fun i => side (x i) (y i)) ∧ jj = (List.range (n - 1)).map (· + 1) ∧
    dx = jj.map (fun j => side (x j) (y j) - side (x (j - 1)) (y (j - 1))) := by
  have hd : npSub (curve x n) (curve y n) = .ok ((List.range n).map fun i => x i - y i) := by
    rw [npSub_eq (by simp [curve])]
    congr 1
    apply List.ext_getElem <;> simp [curve]
  have hs : ((List.range n).map fun i => x i - y i).map npSign = (List.range n).map fun i => side (x i) (y i) := by
    rw [List.map_map]
    apply List.map_congr_left
    intro i _
    exact npSign_sub _ _
  refine ⟨_, _, _, _, by rw [findIntersectionAndPlot, hd]; rfl, by simp, ?_, ?_, ?_⟩
  · rw [hs]; simp
  · simp only [List.length_map, List.length_range]
    apply List.ext_getElem
    · simp
    · intro i h1 h2; simp; omega
  · rw [hs]
    apply List.ext_getElem
    · simp [npDiff_length]
    · intro i h1 h2
      rw [npDiff_get _ _ h1 (by simp [npDiff_length] at h1 ⊢; omega)]
      simp [Nat.add_comm 1 i]

end

/-- The level 1/2 is crossed between the second and the third of four points. -/
example : drawHorizontalLineAt (1 / 2 : ℚ) [0, 3] 4 = .ok ([0, 1, 2, 3], [1 / 2, 1 / 2, 1 / 2, 1 / 2]) ∧
    findIntersection ([0, 1 / 4, 3 / 4, 1] : List ℚ) [1 / 2, 1 / 2, 1 / 2, 1 / 2] = .ok 1 ∧
    findIntersectionAndPlot ([0, 1 / 4, 3 / 4, 1] : List ℚ) [1 / 2, 1 / 2, 1 / 2, 1 / 2] true =
      ([([0, 1, 2, 3], [-1, -1, 1, 1]), ([1, 2, 3], [0, 2, 0])], .ok 1) := by decide +kernel

end SqPerc
