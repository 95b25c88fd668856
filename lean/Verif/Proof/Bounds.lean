import Verif.Proof.Lines
import Mathlib.Data.Finset.Card
/-
A closed walk around the torus meets every row or every column.
-/
namespace SqPerc

variable {L : Nat} {occ : Nat → Prop}

/-- Coordinates of the end of a walk, modulo `L`. -/
theorem Walk.coords (hocc : ∀ s, occ s → s < L * L) {s t : Nat} {v : Int × Int} (h : Walk L occ s t v) :
    (∃ m : Int, ((t / L : Nat) : Int) = ((s / L : Nat) : Int) + v.1 + m * L) ∧
    ∃ m : Int, ((t % L : Nat) : Int) = ((s % L : Nat) : Int) + v.2 + m * L := by
  induction h with
  | nil _ => exact ⟨⟨0, by simp⟩, ⟨0, by simp⟩⟩
  | @snoc t v d w ho ih =>
    obtain ⟨⟨m1, h1⟩, ⟨m2, h2⟩⟩ := ih
    obtain ⟨r, c, hr, hc, rfl⟩ := exists_rc (hocc _ w.occ_right)
    rw [mul_add_div_L hc] at h1
    rw [mul_add_mod_L hc] at h2
    cases d
    · rw [nbr_right_rc hc, mul_add_div_L (succ_mod_lt hc), mul_add_mod_L (succ_mod_lt hc), succ_mod_cases hc]
      refine ⟨⟨m1, by simp [Dir.vec]; omega⟩, ?_⟩
      split
      · next e => exact ⟨m2 - 1, by simp [Dir.vec, sub_mul]; omega⟩
      · exact ⟨m2, by simp [Dir.vec]; omega⟩
    · rw [nbr_down_rc hc, mul_add_div_L hc, mul_add_mod_L hc, succ_mod_cases hr]
      refine ⟨?_, ⟨m2, by simp [Dir.vec]; omega⟩⟩
      split
      · next e => exact ⟨m1 - 1, by simp [Dir.vec, sub_mul]; omega⟩
      · exact ⟨m1, by simp [Dir.vec]; omega⟩
    · rw [nbr_left_rc hc, mul_add_div_L (pred_mod_lt hc), mul_add_mod_L (pred_mod_lt hc), pred_mod_cases hc]
      refine ⟨⟨m1, by simp [Dir.vec]; omega⟩, ?_⟩
      split
      · next e => exact ⟨m2 + 1, by simp [Dir.vec, add_mul]; omega⟩
      · exact ⟨m2, by simp [Dir.vec]; omega⟩
    · rw [nbr_up_rc hc, mul_add_div_L hc, mul_add_mod_L hc, pred_mod_cases hr]
      refine ⟨?_, ⟨m2, by simp [Dir.vec]; omega⟩⟩
      split
      · next e => exact ⟨m1 + 1, by simp [Dir.vec, add_mul]; omega⟩
      · exact ⟨m1, by simp [Dir.vec]; omega⟩

theorem Dir.vec_fst (d : Dir) : d.vec.1 = 0 ∨ d.vec.1 = 1 ∨ d.vec.1 = -1 := by cases d <;> simp [Dir.vec]
theorem Dir.vec_snd (d : Dir) : d.vec.2 = 0 ∨ d.vec.2 = 1 ∨ d.vec.2 = -1 := by cases d <;> simp [Dir.vec]

/-- A walk passes all intermediate row displacements. -/
theorem Walk.between_fst {s t : Nat} {v : Int × Int} (h : Walk L occ s t v) (y : Int) (hy : (0 ≤ y ∧ y ≤ v.1) ∨ (v.1 ≤ y ∧ y ≤ 0)) :
    ∃ u w, Walk L occ s u w ∧ w.1 = y := by
  induction h with
  | nil ho => exact ⟨_, _, .nil ho, by simp at hy; show (0 : Int) = y; omega⟩
  | @snoc t v d w ho ih =>
    by_cases hv : (0 ≤ y ∧ y ≤ v.1) ∨ (v.1 ≤ y ∧ y ≤ 0)
    · exact ih hv
    · refine ⟨_, _, .snoc d w ho, ?_⟩
      have := d.vec_fst
      rw [Prod.fst_add] at hy ⊢
      omega

/-- A walk passes all intermediate column displacements. -/
theorem Walk.between_snd {s t : Nat} {v : Int × Int} (h : Walk L occ s t v) (y : Int) (hy : (0 ≤ y ∧ y ≤ v.2) ∨ (v.2 ≤ y ∧ y ≤ 0)) :
    ∃ u w, Walk L occ s u w ∧ w.2 = y := by
  induction h with
  | nil ho => exact ⟨_, _, .nil ho, by simp at hy; show (0 : Int) = y; omega⟩
  | @snoc t v d w ho ih =>
    by_cases hv : (0 ≤ y ∧ y ≤ v.2) ∨ (v.2 ≤ y ∧ y ≤ 0)
    · exact ih hv
    · refine ⟨_, _, .snoc d w ho, ?_⟩
      have := d.vec_snd
      rw [Prod.snd_add] at hy ⊢
      omega

/-- A displacement within the range of a nonzero multiple of `L` that leads from residue `a` to residue `c`. -/
theorem residue_reach {a c : Nat} (hc : c < L) (ha : a < L) {x m : Int} (hx : x ≠ 0) (hm : (a : Int) = a + x + m * L) :
    ∃ y : Int, ((0 ≤ y ∧ y ≤ x) ∨ (x ≤ y ∧ y ≤ 0)) ∧ ∀ (b : Nat) (n : Int), b < L → (b : Int) = a + y + n * L → b = c := by
  have hxm : x = -m * L := by rw [neg_mul]; omega
  have hm0 : m ≠ 0 := by rintro rfl; simp at hxm; exact hx hxm
  have uniq : ∀ (b : Nat) (n : Int), b < L → (b : Int) = c + n * L → b = c := by
    intro b n hb e
    have : n = 0 := by
      rcases lt_trichotomy n 0 with h | h | h
      · have : n * L ≤ -1 * L := Int.mul_le_mul_of_nonneg_right (by omega) (by omega)
        omega
      · exact h
      · have : 1 * (L : Int) ≤ n * L := Int.mul_le_mul_of_nonneg_right (by omega) (by omega)
        omega
    subst this; simp at e; exact e
  rcases lt_or_gt_of_ne hm0 with h | h
  · have hL : (L : Int) ≤ x := by
      rw [hxm]; have : 1 * (L : Int) ≤ -m * L := Int.mul_le_mul_of_nonneg_right (by omega) (by omega)
      omega
    by_cases hac : a ≤ c
    · exact ⟨c - a, by omega, fun b n hb e => uniq b n hb (by omega)⟩
    · exact ⟨c - a + L, by omega, fun b n hb e => uniq b (n + 1) hb (by rw [add_mul]; omega)⟩
  · have hL : x ≤ -(L : Int) := by
      rw [hxm, neg_mul]; have : 1 * (L : Int) ≤ m * L := Int.mul_le_mul_of_nonneg_right (by omega) (by omega)
      omega
    by_cases hac : c ≤ a
    · exact ⟨(c : Int) - a, by omega, fun b n hb e => uniq b n hb (by omega)⟩
    · exact ⟨(c : Int) - a - L, by omega, fun b n hb e => uniq b (n - 1) hb (by rw [sub_mul]; omega)⟩

/-- The component of a site on a closed walk that winds from row to row meets every row. -/
theorem Walk.meets_rows (hocc : ∀ s, occ s → s < L * L) {k : Nat} {v : Int × Int} (w : Walk L occ k k v) (hv : v.1 ≠ 0) {r : Nat} (hr : r < L) :
    ∃ c < L, SiteConn L occ k (r * L + c) ∧ occ (r * L + c) := by
  have hk := hocc k w.occ_left
  have hL := pos_of_lt_sq hk
  obtain ⟨⟨m1, h1⟩, _⟩ := w.coords hocc
  obtain ⟨y, hy, huniq⟩ := residue_reach hr (Nat.div_lt_of_lt_mul hk) hv h1
  obtain ⟨u, w', hw, rfl⟩ := w.between_fst y hy
  obtain ⟨⟨m, hm⟩, _⟩ := hw.coords hocc
  have hu := hocc u hw.occ_right
  have := huniq _ m (Nat.div_lt_of_lt_mul hu) hm
  refine ⟨u % L, Nat.mod_lt u hL, ?_⟩
  rw [← this, Nat.div_add_mod']
  exact ⟨hw.siteConn, hw.occ_right⟩

/-- The component of a site on a closed walk that winds from column to column meets every column. -/
theorem Walk.meets_cols (hocc : ∀ s, occ s → s < L * L) {k : Nat} {v : Int × Int} (w : Walk L occ k k v) (hv : v.2 ≠ 0) {c : Nat} (hc : c < L) :
    ∃ r < L, SiteConn L occ k (r * L + c) ∧ occ (r * L + c) := by
  have hk := hocc k w.occ_left
  have hL := pos_of_lt_sq hk
  obtain ⟨_, ⟨m2, h2⟩⟩ := w.coords hocc
  obtain ⟨y, hy, huniq⟩ := residue_reach hc (Nat.mod_lt k hL) hv h2
  obtain ⟨u, w', hw, rfl⟩ := w.between_snd y hy
  obtain ⟨_, m, hm⟩ := hw.coords hocc
  have hu := hocc u hw.occ_right
  have := huniq _ m (Nat.mod_lt u hL) hm
  refine ⟨u / L, Nat.div_lt_of_lt_mul hu, ?_⟩
  rw [← this, Nat.div_add_mod']
  exact ⟨hw.siteConn, hw.occ_right⟩

/-- The component of a site on a non-contractible closed walk meets every row, or it meets every column. -/
theorem WrapsAt.spans (hocc : ∀ s, occ s → s < L * L) {k : Nat} (h : WrapsAt L occ k) :
    (∀ r < L, ∃ c < L, SiteConn L occ k (r * L + c) ∧ occ (r * L + c)) ∨
    (∀ c < L, ∃ r < L, SiteConn L occ k (r * L + c) ∧ occ (r * L + c)) := by
  obtain ⟨v, hv, w⟩ := h
  by_cases hv1 : v.1 = 0
  · exact .inr fun c hc => w.meets_cols hocc (fun h => hv (Prod.ext hv1 h)) hc
  · exact .inl fun r hr => w.meets_rows hocc hv1 hr

/-- So it has at least `L` sites. -/
theorem WrapsAt.card_le (hocc : ∀ s, occ s → s < L * L) {k : Nat} (h : WrapsAt L occ k) : L ≤ (siteComp L occ k).card := by
  classical
  have hmem : ∀ t, SiteConn L occ k t → occ t → t ∈ siteComp L occ k := by
    intro t h1 h2
    simp only [siteComp, Finset.mem_filter, Finset.mem_range]
    exact ⟨hocc t h2, h2, h1⟩
  rcases h.spans hocc with hs | hs
  · have : Finset.range L ⊆ (siteComp L occ k).image (· / L) := by
      intro r hr
      obtain ⟨c, hc, h1, h2⟩ := hs r (Finset.mem_range.1 hr)
      exact Finset.mem_image.2 ⟨_, hmem _ h1 h2, mul_add_div_L hc⟩
    calc L = (Finset.range L).card := (Finset.card_range L).symm
      _ ≤ _ := Finset.card_le_card this
      _ ≤ _ := Finset.card_image_le
  · have : Finset.range L ⊆ (siteComp L occ k).image (· % L) := by
      intro c hc
      obtain ⟨r, hr, h1, h2⟩ := hs c (Finset.mem_range.1 hc)
      exact Finset.mem_image.2 ⟨_, hmem _ h1 h2, mul_add_mod_L (Finset.mem_range.1 hc)⟩
    calc L = (Finset.range L).card := (Finset.card_range L).symm
      _ ≤ _ := Finset.card_le_card this
      _ ≤ _ := Finset.card_image_le

/-- A configuration with fewer than `L` empty sites wraps. -/
theorem wraps_of_few_empty (hL : 0 < L) {q : List Nat} (hq : q.Nodup) (hlt : ∀ s ∈ q, s < L * L) (h : L * L < q.length + L) :
    Wraps L (· ∈ q) := by
  classical
  by_contra hn
  have hrow : ∀ r < L, ∃ c < L, r * L + c ∉ q := by
    intro r hr
    by_contra hall
    push Not at hall
    obtain ⟨v, hv, w⟩ := row_wraps (occ := (· ∈ q)) (r := r) hL hall
    exact hn ⟨_, v, hv, w⟩
  let E := (Finset.range (L * L)) \ q.toFinset
  have hE : L ≤ E.card := by
    have : Finset.range L ⊆ E.image (· / L) := by
      intro r hr
      obtain ⟨c, hc, h1⟩ := hrow r (Finset.mem_range.1 hr)
      exact Finset.mem_image.2 ⟨r * L + c, by
        rw [Finset.mem_sdiff]
        exact ⟨Finset.mem_range.2 (mul_add_lt (Finset.mem_range.1 hr) hc), by simpa using h1⟩, mul_add_div_L hc⟩
    calc L = (Finset.range L).card := (Finset.card_range L).symm
      _ ≤ _ := Finset.card_le_card this
      _ ≤ _ := Finset.card_image_le
  have hsub : q.toFinset ⊆ Finset.range (L * L) := by
    intro s hs
    exact Finset.mem_range.2 (hlt s (List.mem_toFinset.1 hs))
  have := Finset.card_sdiff_add_card_eq_card hsub
  rw [Finset.card_range, List.toFinset_card_of_nodup hq] at this
  have : E.card + q.length = L * L := this
  omega

end SqPerc
