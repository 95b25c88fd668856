import Verif.Proof.Small
import Verif.Proof.Lines
/-
Lattices with few empty sites, and the entropy when there is one large cluster.
-/
namespace SqPerc

variable {L : Nat} {occ : Nat → Prop}

theorem SiteConn.back (hocc : ∀ s, occ s → s < L * L) {s t : Nat} (hs : occ s) (ht : occ t) (h : SiteConn L occ s t) : SiteConn L occ t s :=
  (siteConn_iff hocc ht hs .right .right).2 ((siteConn_iff hocc hs ht .right .right).1 h).symm

theorem row_conn {r : Nat} (h : ∀ c < L, occ (r * L + c)) {c : Nat} (hc : c < L) : SiteConn L occ (r * L) (r * L + c) := by
  induction c with
  | zero => exact SiteConn.refl _
  | succ c ih =>
    refine (ih (by omega)).tail ⟨h c (by omega), h _ hc, .right, ?_⟩
    rw [nbr_right_rc (by omega), Nat.mod_eq_of_lt hc]

theorem col_conn {c : Nat} (hc : c < L) (h : ∀ r < L, occ (r * L + c)) {r : Nat} (hr : r < L) : SiteConn L occ c (r * L + c) := by
  induction r with
  | zero => rw [Nat.zero_mul, Nat.zero_add]; exact SiteConn.refl _
  | succ r ih =>
    refine (ih (by omega)).tail ⟨h r (by omega), h _ hr, .down, ?_⟩
    rw [nbr_down_rc hc, Nat.mod_eq_of_lt hr]

open Classical in
/-- The sites that are not in the cluster of `s`. -/
noncomputable def outside (L : Nat) (occ : Nat → Prop) (s : Nat) : Finset Nat := (Finset.range (L * L)).filter fun t => t ∉ siteComp L occ s

/-- Bonds outside a cluster start at sites outside the cluster. -/
theorem bondComp_ge (hocc : ∀ s, occ s → s < L * L) {s : Nat} (hs : occ s) :
    2 * (L * L) ≤ (bondComp L occ (bondAt L s .right)).card + 2 * (outside L occ s).card := by
  classical
  have hsub : Finset.range (2 * (L * L)) ⊆
      bondComp L occ (bondAt L s .right) ∪ (outside L occ s ∪ (outside L occ s).image (· + L * L)) := by
    intro b hb
    rw [Finset.mem_range] at hb
    -- the first end of the bond
    obtain ⟨t, d, ht, hd, he⟩ : ∃ t d, t < L * L ∧ bondAt L t d = b ∧ (b = t ∨ b = t + L * L) := by
      by_cases h : b < L * L
      · exact ⟨b, .right, h, rfl, .inl rfl⟩
      · exact ⟨b - L * L, .down, by omega, by show L * L + (b - L * L) = b; omega, .inr (by omega)⟩
    by_cases hm : t ∈ siteComp L occ s
    · refine Finset.mem_union_left _ ?_
      simp only [siteComp, Finset.mem_filter, Finset.mem_range] at hm
      simp only [bondComp, Finset.mem_filter, Finset.mem_range]
      refine ⟨hb, ?_⟩
      rw [← hd]
      exact (siteConn_iff hocc hs hm.2.1 .right d).1 hm.2.2
    · refine Finset.mem_union_right _ ?_
      have hout : t ∈ outside L occ s := Finset.mem_filter.2 ⟨Finset.mem_range.2 ht, hm⟩
      rcases he with he | he
      · exact Finset.mem_union_left _ (he ▸ hout)
      · exact Finset.mem_union_right _ (Finset.mem_image.2 ⟨t, hout, he.symm⟩)
  have h1 := Finset.card_le_card hsub
  rw [Finset.card_range] at h1
  have h2 := Finset.card_union_le (bondComp L occ (bondAt L s .right)) (outside L occ s ∪ (outside L occ s).image (· + L * L))
  have h3 := Finset.card_union_le (outside L occ s) ((outside L occ s).image (· + L * L))
  have h4 := Finset.card_image_le (s := outside L occ s) (f := (· + L * L))
  omega

open Classical in
/-- The empty sites. -/
noncomputable def empties (L : Nat) (occ : Nat → Prop) : Finset Nat := (Finset.range (L * L)).filter fun t => ¬ occ t

theorem empties_card (L : Nat) (occ : Nat → Prop) : occCount L occ + (empties L occ).card = L * L := by
  classical
  have := Finset.card_filter_add_card_filter_not (s := Finset.range (L * L)) occ
  rw [Finset.card_range] at this
  unfold occCount empties
  convert this

/-- With fewer than `L` empty sites there are a full row and a full column, and every site in a full row or column is connected to their
common site. -/
theorem full_lines (hocc : ∀ s, occ s → s < L * L) {m : Nat} (hm : (empties L occ).card = m) (hmL : m < L) : ∃ r0 < L, ∃ c0 < L, (∀ c < L, occ (r0 * L + c)) ∧ (∀ r < L, occ (r * L + c0)) ∧
    (outside L occ (r0 * L + c0)).card ≤ m * m := by
  classical
  set br := (empties L occ).image (· / L) with hbr
  set bc := (empties L occ).image (· % L) with hbc
  have hbr' : br.card ≤ m := hm ▸ Finset.card_image_le
  have hbc' : bc.card ≤ m := hm ▸ Finset.card_image_le
  have good : ∀ X : Finset Nat, X.card ≤ m → ∃ r < L, r ∉ X := by
    intro X hX
    by_contra hcon
    push Not at hcon
    have := Finset.card_le_card (fun r hr => hcon r (Finset.mem_range.1 hr) : Finset.range L ⊆ X)
    rw [Finset.card_range] at this
    omega
  have rows : ∀ r < L, r ∉ br → ∀ c < L, occ (r * L + c) := by
    intro r hr h c hc
    by_contra hn
    refine h (Finset.mem_image.2 ⟨r * L + c, Finset.mem_filter.2 ⟨Finset.mem_range.2 (rc_lt hr hc), hn⟩, ?_⟩)
    show (r * L + c) / L = r
    rw [Nat.add_comm, Nat.add_mul_div_right _ _ (by omega), Nat.div_eq_of_lt hc, Nat.zero_add]
  have cols : ∀ c < L, c ∉ bc → ∀ r < L, occ (r * L + c) := by
    intro c hc h r hr
    by_contra hn
    refine h (Finset.mem_image.2 ⟨r * L + c, Finset.mem_filter.2 ⟨Finset.mem_range.2 (rc_lt hr hc), hn⟩, ?_⟩)
    show (r * L + c) % L = c
    rw [Nat.add_comm, Nat.add_mul_mod_self_right, Nat.mod_eq_of_lt hc]
  obtain ⟨r0, hr0, hr0'⟩ := good br hbr'
  obtain ⟨c0, hc0, hc0'⟩ := good bc hbc'
  have R0 := rows r0 hr0 hr0'
  have C0 := cols c0 hc0 hc0'
  refine ⟨r0, hr0, c0, hc0, R0, C0, ?_⟩
  have hsub : outside L occ (r0 * L + c0) ⊆ (br ×ˢ bc).image fun x => x.1 * L + x.2 := by
    intro t ht
    obtain ⟨htl, ht⟩ := Finset.mem_filter.1 ht
    rw [Finset.mem_range] at htl
    obtain ⟨r, c, hr, hc, rfl⟩ := exists_rc htl
    refine Finset.mem_image.2 ⟨(r, c), Finset.mem_product.2 ?_, rfl⟩
    by_contra hcon
    refine ht ?_
    simp only [siteComp, Finset.mem_filter, Finset.mem_range]
    have : r ∉ br ∨ c ∉ bc := by
      by_contra h
      push Not at h
      exact hcon h
    rcases this with h | h
    · have R := rows r hr h
      refine ⟨rc_lt hr hc, R c hc, ?_⟩
      have z := C0 0 (by omega)
      have z' := R 0 (by omega)
      rw [Nat.zero_mul, Nat.zero_add] at z
      rw [Nat.add_zero] at z'
      exact ((((col_conn hc0 C0 hr0).back hocc z (C0 r0 hr0)).trans (col_conn hc0 C0 hr)).trans ((row_conn R hc0).back hocc z' (R c0 hc0))).trans
        (row_conn R hc)
    · have C := cols c hc h
      refine ⟨rc_lt hr hc, C r hr, ?_⟩
      have z := R0 0 (by omega)
      have z' := C 0 (by omega)
      rw [Nat.add_zero] at z
      rw [Nat.zero_mul, Nat.zero_add] at z'
      exact ((((row_conn R0 hc0).back hocc z (R0 c0 hc0)).trans (row_conn R0 hc)).trans ((col_conn hc C hr0).back hocc z' (C r0 hr0))).trans
        (col_conn hc C hr)
  refine (Finset.card_le_card hsub).trans (Finset.card_image_le.trans ?_)
  rw [Finset.card_product]
  exact Nat.mul_le_mul hbr' hbc'

/-- If one component is large, the entropy is small. -/
theorem shannon_le (hL : 0 < L) {b : Nat} (hb : b < 2 * (L * L)) :
    shannon L occ ≤ (1 - (bondComp L occ b).card / (2 * (L * L) : Nat)) * (1 + Real.log (2 * (L * L) : Nat)) := by
  classical
  have hB : (0 : ℝ) < (2 * (L * L) : Nat) := by
    have := Nat.mul_pos hL hL
    exact_mod_cast (by omega : 0 < 2 * (L * L))
  have hmem : bondComp L occ b ∈ bondComps L occ := Finset.mem_image.2 ⟨b, Finset.mem_range.2 hb, rfl⟩
  have hpos : ∀ X ∈ bondComps L occ, (0 : ℝ) < X.card := by
    intro X hX
    obtain ⟨a, ha, rfl⟩ := Finset.mem_image.1 hX
    exact_mod_cast Finset.card_pos.2 ⟨a, bondComp_self (Finset.mem_range.1 ha)⟩
  have htot : ∑ X ∈ bondComps L occ, (X.card : ℝ) / (2 * (L * L) : Nat) = 1 := by
    rw [← Finset.sum_div, ← Nat.cast_sum, sum_bondComps, div_self hB.ne']
  rw [shannon, ← Finset.add_sum_erase _ _ hmem, neg_add, ← Finset.sum_neg_distrib]
  rw [← Finset.add_sum_erase _ _ hmem] at htot
  have hrest : ∑ X ∈ (bondComps L occ).erase (bondComp L occ b), (X.card : ℝ) / (2 * (L * L) : Nat) =
      1 - (bondComp L occ b).card / (2 * (L * L) : Nat) := by linarith
  rw [mul_add, mul_one]
  refine add_le_add ?_ ?_
  · have h0 := hpos _ hmem
    have hx : 0 < ((bondComp L occ b).card : ℝ) / (2 * (L * L) : Nat) := div_pos h0 hB
    have := mul_le_mul_of_nonneg_left (Real.one_sub_inv_le_log_of_pos hx) hx.le
    rw [mul_sub, mul_one, mul_inv_cancel₀ hx.ne'] at this
    linarith
  · rw [← hrest, Finset.sum_mul]
    refine Finset.sum_le_sum fun X hX => ?_
    have h0 := hpos X (Finset.mem_of_mem_erase hX)
    rw [← mul_neg]
    refine mul_le_mul_of_nonneg_left ?_ (div_pos h0 hB).le
    rw [← Real.log_inv, inv_div]
    refine Real.log_le_log (by positivity) ?_
    have h1 : (1 : ℝ) ≤ X.card := by
      have : 0 < X.card := by exact_mod_cast h0
      exact_mod_cast this
    rw [div_le_iff₀ h0]
    nlinarith

end SqPerc
