import Verif.Proof.Cross
import Verif.Props.Plane
import Verif.Props.Bounds
import Verif.Props.Lists
import Verif.Props.FirstStraight
/-
Property C94: how several clusters can wrap at the same time.
-/
namespace SqPerc

variable {L : Nat} {occ : Nat → Prop}

/-! ### The periodic lattice -/

/-- A walk stays in the component of its start. -/
theorem Walk.in_comp {s t : Nat} {v : Int × Int} (h : Walk L occ s t v) : Walk L (fun x => occ x ∧ SiteConn L occ s x) s t v := by
  induction h with
  | nil ho => exact .nil ⟨ho, .refl _⟩
  | snoc d w ho ih => exact .snoc d ih ⟨ho, (w.snoc d ho).siteConn⟩

theorem SiteConn.symm_occ (hocc : ∀ s, occ s → s < L * L) {s t : Nat} (hs : occ s) (h : SiteConn L occ s t) : SiteConn L occ t s := by
  obtain ⟨_, w⟩ := h.walk hs
  exact (w.reverse hocc).siteConn

/-- Closed walks in different components wind in parallel directions. -/
theorem apart_parallel (hocc : ∀ s, occ s → s < L * L) {s t : Nat} (hn : ¬ SiteConn L occ s t) {v w : Int × Int} (h : Walk L occ s s v)
    (h' : Walk L occ t t w) : v.1 * w.2 = v.2 * w.1 := by
  refine h.in_comp.parallel (fun _ h => hocc _ h.1) (fun _ h => hocc _ h.1) ?_ h'.in_comp
  rintro x ⟨_, h1⟩ ⟨_, h2⟩
  exact hn (h1.trans (h2.symm_occ hocc h'.occ_left))

/-- Components that all meet the same closed line of `L` sites: there are at most `L / 2` of them. -/
theorem count_on_line (hL : 2 ≤ L) (hocc : ∀ s, occ s → s < L * L) {T : Finset Nat} (hT : ∀ s ∈ T, occ s)
    (hap : ∀ s ∈ T, ∀ t ∈ T, s ≠ t → ¬ SiteConn L occ s t) {f : Nat → Nat} {d : Dir} (hf : ∀ r < L, nbr L (f r) d = f ((r + 1) % L))
    (hm : ∀ s ∈ T, ∃ r < L, SiteConn L occ s (f r) ∧ occ (f r)) : 2 * T.card ≤ L := by
  classical
  choose! r h1 h2 h3 using hm
  have same : ∀ s ∈ T, ∀ t ∈ T, r s = r t → s = t := by
    intro s hs t ht e
    by_contra hne
    refine hap s hs t ht hne ((h2 s hs).trans ?_)
    rw [e]
    exact (h2 t ht).symm_occ hocc (hT t ht)
  have next : ∀ s ∈ T, ∀ t ∈ T, (r s + 1) % L ≠ r t := by
    intro s hs t ht e
    by_cases hst : s = t
    · subst hst
      have := succ_mod_cases (h1 s hs)
      rw [e] at this
      split at this <;> omega
    · refine hap s hs t ht hst ((h2 s hs).trans (.trans ?_ ((h2 t ht).symm_occ hocc (hT t ht))))
      have hn : nbr L (f (r s)) d = f (r t) := by rw [hf _ (h1 s hs), e]
      rw [← hn]
      exact .single d (h3 s hs) (by rw [hn]; exact h3 t ht)
  have hA : (T.image r).card = T.card := Finset.card_image_of_injOn fun s hs t ht e => same s hs t ht e
  have hB : (T.image fun s => (r s + 1) % L).card = T.card := by
    refine Finset.card_image_of_injOn fun s hs t ht e => same s hs t ht ?_
    have := congrArg (fun x => (x + (L - 1)) % L) e
    simpa only [pred_succ_mod (h1 s hs), pred_succ_mod (h1 t ht)] using this
  have hdis : Disjoint (T.image r) (T.image fun s => (r s + 1) % L) := by
    rw [Finset.disjoint_left]
    intro x hx hx'
    obtain ⟨t, ht, rfl⟩ := Finset.mem_image.1 hx
    obtain ⟨s, hs, e⟩ := Finset.mem_image.1 hx'
    exact next s hs t ht e
  have hsub : T.image r ∪ T.image (fun s => (r s + 1) % L) ⊆ Finset.range L := by
    intro x hx
    rcases Finset.mem_union.1 hx with h | h
    · obtain ⟨s, hs, rfl⟩ := Finset.mem_image.1 h
      exact Finset.mem_range.2 (h1 s hs)
    · obtain ⟨s, hs, rfl⟩ := Finset.mem_image.1 h
      exact Finset.mem_range.2 (Nat.mod_lt _ (by omega))
  have := Finset.card_le_card hsub
  rw [Finset.card_union_of_disjoint hdis, hA, hB, Finset.card_range] at this
  omega

/-- At most `L / 2` components wrap around the torus. -/
theorem count_wrapping (hL : 2 ≤ L) (hocc : ∀ s, occ s → s < L * L) {T : Finset Nat} (hT : ∀ s ∈ T, WrapsAt L occ s)
    (hap : ∀ s ∈ T, ∀ t ∈ T, s ≠ t → ¬ SiteConn L occ s t) : 2 * T.card ≤ L := by
  have ho : ∀ s ∈ T, occ s := fun s hs => by obtain ⟨v, _, w⟩ := hT s hs; exact w.occ_left
  rcases T.eq_empty_or_nonempty with rfl | ⟨s, hs⟩
  · simp
  obtain ⟨v, hv, hw⟩ := hT s hs
  by_cases h2 : v.2 = 0
  · have h1 : v.1 ≠ 0 := fun h => hv (Prod.ext h h2)
    refine count_on_line hL hocc ho hap (f := fun c => 0 * L + c) (d := .right) (fun c hc => nbr_right_rc hc) ?_
    intro t ht
    by_cases e : s = t
    · subst e; exact hw.meets_rows hocc h1 (by omega)
    · obtain ⟨w, hw0, hw'⟩ := hT t ht
      refine hw'.meets_rows hocc (fun h => hw0 ?_) (by omega)
      have := apart_parallel hocc (hap s hs t ht e) hw hw'
      rw [h2, zero_mul, mul_eq_zero, or_iff_right h1] at this
      exact Prod.ext h this
  · refine count_on_line hL hocc ho hap (f := fun r => r * L + 0) (d := .down) (fun r _ => nbr_down_rc (by omega)) ?_
    intro t ht
    by_cases e : s = t
    · subst e; exact hw.meets_cols hocc h2 (by omega)
    · obtain ⟨w, hw0, hw'⟩ := hT t ht
      refine hw'.meets_cols hocc (fun h => hw0 ?_) (by omega)
      have := apart_parallel hocc (hap s hs t ht e) hw hw'
      rw [h, mul_zero, eq_comm, mul_eq_zero, or_iff_right h2] at this
      exact Prod.ext this h

/-- Occupied sites in rows that are separated from the other occupied rows stay among themselves. -/
theorem rows_apart {P : Nat → Prop} (hocc : ∀ s, occ s → s < L * L)
    (hP : ∀ s d, occ s → occ (nbr L s d) → P (s / L) → (d = .down ∨ d = .up) → P (nbr L s d / L)) {s t : Nat} (h : SiteConn L occ s t) (hs : P (s / L)) :
    P (t / L) := by
  induction h with
  | refl => exact hs
  | @tail a b _ h ih =>
    obtain ⟨ha, hb, d, rfl⟩ := h
    have hL := pos_of_lt_sq (hocc a ha)
    cases d with
    | right => simp only [nbr]; rwa [mul_add_div_L (Nat.mod_lt _ hL)]
    | left => simp only [nbr]; rwa [mul_add_div_L (Nat.mod_lt _ hL)]
    | down => exact hP a .down ha hb ih (.inl rfl)
    | up => exact hP a .up ha hb ih (.inr rfl)

theorem nbr_down_row {s : Nat} (hL : 0 < L) : nbr L s .down / L = (s / L + 1) % L := by
  simp only [nbr]; rw [mul_add_div_L (Nat.mod_lt _ hL)]

theorem nbr_up_row {s : Nat} (hL : 0 < L) : nbr L s .up / L = (s / L + (L - 1)) % L := by
  simp only [nbr]; rw [mul_add_div_L (Nat.mod_lt _ hL)]

/-! ### The clusters of the code -/

variable {α : Type} {env : Env α} {v : Variant} {S S' : Perc α} {seq : List Nat}

/-- C94: after any history, closed walks through occupied sites in two different clusters wind around the lattice in parallel directions. -/
theorem C94_parallel (h : Reach env v L S) {s t : Nat} (hne : S.lat.getSiteGid s ≠ S.lat.getSiteGid t) {a b : Int × Int}
    (ha : Walk L S.Occ s s a) (hb : Walk L S.Occ t t b) : a.1 * b.2 = a.2 * b.1 :=
  apart_parallel (fun _ => h.occ_lt) (fun hc => hne ((C07_same_gid_iff_connected h ha.occ_left hb.occ_left).2 hc)) ha hb

/-- C94: as soon as the cluster of a site wraps in two independent directions, it is the only cluster that wraps: every site on a
non-contractible closed walk belongs to it. -/
theorem C94_unique (h : Reach env v L S) {s : Nat} {a b : Int × Int} (ha : Walk L S.Occ s s a) (hb : Walk L S.Occ s s b)
    (hab : a.1 * b.2 ≠ a.2 * b.1) {t : Nat} (ht : WrapsAt L S.Occ t) : S.lat.getSiteGid t = S.lat.getSiteGid s := by
  by_contra hne
  obtain ⟨w, hw0, hw⟩ := ht
  have h1 := C94_parallel h (Ne.symm hne) ha hw
  have h2 := C94_parallel h (Ne.symm hne) hb hw
  apply hab
  have e1 : (a.1 * b.2 - a.2 * b.1) * w.1 = 0 := by linear_combination b.1 * h1 - a.1 * h2
  have e2 : (a.1 * b.2 - a.2 * b.1) * w.2 = 0 := by linear_combination b.2 * h1 - a.2 * h2
  by_contra hne'
  have hne' : a.1 * b.2 - a.2 * b.1 ≠ 0 := sub_ne_zero.2 hne'
  exact hw0 (Prod.ext ((mul_eq_zero.1 e1).resolve_left hne') ((mul_eq_zero.1 e2).resolve_left hne'))

/-- C94: so a wrapping cluster with a complete row and a complete column is the only cluster that wraps. -/
theorem C94_both_lines (h : Reach env v L S) {g : Int} {r c : Nat} (hr : r < L) (hc : c < L) (hg : 0 ≤ g)
    (hrow : ∀ c < L, S.lat.getSiteGid (r * L + c) = .ok g) (hcol : ∀ r < L, S.lat.getSiteGid (r * L + c) = .ok g)
    {t : Nat} (ht : WrapsAt L S.Occ t) : S.lat.getSiteGid t = .ok g := by
  obtain ⟨hL, A, M, hA⟩ := h.sim
  have hocc : ∀ s, S.Occ s → s < L * L := fun s => h.occ_lt
  have occ_of : ∀ s < L * L, S.lat.getSiteGid s = .ok g → S.Occ s := by
    intro s hs e
    rw [M.siteGid hs] at e
    exact (M.occ_iff s).2 ⟨hs, by rw [Except.ok.inj e]; exact hg⟩
  have w1 := row_walk (occ := S.Occ) hL fun c hc => occ_of _ (rc_lt hr hc) (hrow c hc)
  have w2 := col_walk (occ := S.Occ) hL hc fun r hr => occ_of _ (rc_lt hr hc) (hcol r hr)
  have g1 : S.lat.getSiteGid (r * L) = .ok g := by simpa using hrow 0 hL
  have g2 : S.lat.getSiteGid c = .ok g := by simpa using hcol 0 hL
  obtain ⟨u, hu⟩ := ((C07_same_gid_iff_connected h w1.occ_left w2.occ_left).1 (g1.trans g2.symm)).walk w1.occ_left
  have w2' := (hu.append w2).append (hu.reverse hocc)
  rw [show u + ((L : Int), 0) + -u = ((L : Int), (0 : Int)) by abel] at w2'
  rw [C94_unique h w1 w2' (by simp; omega) ht, g1]

/-- C94: after any history, if every site of a list lies on a non-contractible closed walk and the sites belong to different clusters, there are at
most `L / 2` of them. -/
theorem C94_at_most (hL : 2 ≤ L) (h : Reach env v L S) {ts : List Nat} (hw : ∀ t ∈ ts, WrapsAt L S.Occ t)
    (hne : ts.Pairwise fun s t => S.lat.getSiteGid s ≠ S.lat.getSiteGid t) : 2 * ts.length ≤ L := by
  classical
  have ho : ∀ s ∈ ts, S.Occ s := fun s hs => by obtain ⟨v, _, w⟩ := hw s hs; exact w.occ_left
  have hnd : ts.Nodup := hne.imp fun h e => h (by rw [e])
  have hp : ∀ s ∈ ts, ∀ t ∈ ts, s ≠ t → S.lat.getSiteGid s ≠ S.lat.getSiteGid t := by
    intro s hs t ht
    haveI : Std.Symm fun s t => S.lat.getSiteGid s ≠ S.lat.getSiteGid t := ⟨fun _ _ h => h.symm⟩
    exact hne.forall hs ht
  rw [← List.toFinset_card_of_nodup hnd]
  refine count_wrapping hL (fun _ => h.occ_lt) (fun s hs => hw s (List.mem_toFinset.1 hs)) ?_
  intro s hs t ht hst hc
  have hs := List.mem_toFinset.1 hs
  have ht := List.mem_toFinset.1 ht
  exact hp s hs t ht hst ((C07_same_gid_iff_connected h (ho s hs) (ho t ht)).2 hc)

/-- C94: at the moment at which wrapping sets in, no cluster but the wrapping cluster wraps. -/
theorem C94_at_pc (hL : 3 ≤ L) {k : Nat} (T : Trace env v L S (seq ++ [k])) (hn : ¬ Wraps L (· ∈ seq)) {t : Nat} (ht : WrapsAt L S.Occ t) :
    S.afterWrapping = true ∧ S.lat.getSiteGid t = .ok S.wrappingId := by
  have e : S.Occ = (· ∈ seq ++ [k]) := funext fun s => propext (T.reports.occ s)
  rw [e] at ht
  have hw : Wraps L (· ∈ seq ++ [k]) := ht.wraps
  have ha := T.aw_iff.2 ⟨hL, hw⟩
  refine ⟨ha, ?_⟩
  obtain ⟨a, ha0, w⟩ := ht
  have htl : t < L * L := T.seq_nodup_lt.2 t w.occ_left
  rw [T.inWrap_iff ha htl]
  refine ⟨seq, k, [], rfl, hn, hw, ?_⟩
  rcases w.cut with w' | ⟨v1, v2, _, w2, _⟩
  · exact absurd ⟨t, a, ha0, w'⟩ hn
  · exact w2.siteConn

/-- The complete rows `rs`, one after the other. -/
def rowsOrder (L : Nat) (rs : List Nat) : List Nat := rs.flatMap fun r => (List.range L).map (r * L + ·)

theorem mem_rowsOrder {rs : List Nat} {s : Nat} (hL : 0 < L) : s ∈ rowsOrder L rs ↔ s / L ∈ rs := by
  simp only [rowsOrder, List.mem_flatMap, List.mem_map, List.mem_range]
  constructor
  · rintro ⟨r, hr, c, hc, rfl⟩
    rwa [mul_add_div_L hc]
  · intro h
    exact ⟨s / L, h, s % L, Nat.mod_lt _ hL, Nat.div_add_mod' s L⟩

theorem rowsOrder_nodup {rs : List Nat} (h : rs.Nodup) : (rowsOrder L rs).Nodup := by
  rw [rowsOrder, List.nodup_flatMap]
  refine ⟨fun r _ => List.nodup_range.map fun a b e => by simpa using e, h.imp ?_⟩
  intro r r' hne s hs hs'
  obtain ⟨c, hc, rfl⟩ := List.mem_map.1 hs
  obtain ⟨c', hc', e⟩ := List.mem_map.1 hs'
  exact hne (rc_inj (List.mem_range.1 hc) (List.mem_range.1 hc') e.symm).1

/-- Placing complete rows one after the other. -/
theorem Start.rows (hL : 3 ≤ L) (h : Start env .l0 L S) {rs : List Nat} (hne : rs ≠ []) (hrs : ∀ r ∈ rs, r < L) (hnd : rs.Nodup)
    (draws : Nat → Nat) {fuel : Nat} (hf : rs.length * L < fuel) (ds : Nat → Draw) :
    ∃ S1 S', S.setCustomIds ((rowsOrder L rs).map Int.ofNat) false draws = .ok S1 ∧ S1.runOnce env .l0 fuel ds = .ok S' ∧
      Reach env .l0 L S' ∧ Trace env .l0 L S' (rowsOrder L rs) ∧ (∀ s, S'.Occ s ↔ s / L ∈ rs) ∧ S'.afterWrapping = true ∧
      S'.lat.getSiteGid (rs.head hne * L) = .ok S'.wrappingId := by
  have hL0 : 0 < L := by omega
  have hlen : (rowsOrder L rs).length = rs.length * L := by
    simp [rowsOrder, List.length_flatMap]
  have hlt : ∀ s ∈ rowsOrder L rs, s < L * L := fun s hs =>
    (Nat.div_lt_iff_lt_mul hL0).1 (hrs _ ((mem_rowsOrder hL0).1 hs))
  have hmap : ∀ l : List Nat, (l.map Int.ofNat).map Int.toNat = l := fun l => by rw [List.map_map]; exact List.map_id _
  obtain ⟨S1, S', seq, h1, h2, T, e⟩ := C30_run_once rfl h (ids := (rowsOrder L rs).map Int.ofNat) (by
      intro e
      have := congrArg List.length e
      rw [List.length_map, hlen, List.length_nil] at this
      rcases Nat.mul_eq_zero.1 this with h | h
      · exact hne (List.length_eq_zero_iff.1 h)
      · omega) (by
      intro i hi
      obtain ⟨s, hs, rfl⟩ := List.mem_map.1 hi
      have := hlt s hs
      refine ⟨Int.natCast_nonneg s, ?_⟩
      show (s : Int) < _
      exact_mod_cast this) ((rowsOrder_nodup hnd).map fun _ _ e => Int.ofNat.inj e) draws (fuel := fuel) (by rw [List.length_map, hlen]; exact hf) ds
  have e : seq = rowsOrder L rs := by
    have := congrArg (List.map Int.toNat) e
    rwa [hmap, hmap] at this
  subst e
  have hocc : ∀ s, S'.Occ s ↔ s / L ∈ rs := fun s => (T.reports.occ s).trans (mem_rowsOrder hL0)
  have hrow : ∀ c < L, rs.head hne * L + c ∈ rowsOrder L [rs.head hne] := fun c hc =>
    (mem_rowsOrder hL0).2 (by rw [mul_add_div_L hc]; simp)
  have hR : Reach env .l0 L S' := .step (.runOnce fuel ds) (.step (.setIds _ false draws) h.reach h1) h2
  have hW0 : Wraps L (· ∈ rowsOrder L [rs.head hne]) := (row_wraps (occ := (· ∈ rowsOrder L [rs.head hne])) hL0 hrow).wraps
  obtain ⟨pre, k, post, e1, e2, e3⟩ := first_wrap _ hW0
  have hsplit : rowsOrder L rs = pre ++ k :: (post ++ rowsOrder L rs.tail) := by
    have e0 : rowsOrder L rs = rowsOrder L (rs.head hne :: rs.tail) := by rw [List.cons_head_tail]
    have e4 : ∀ r l, rowsOrder L (r :: l) = rowsOrder L [r] ++ rowsOrder L l := by simp [rowsOrder]
    rw [e0, e4, e1, List.append_assoc, List.cons_append]
  have ha : S'.afterWrapping = true := T.aw_iff.2 ⟨hL, e3.mono fun s hs => by
    rw [hsplit]; simp at hs ⊢; tauto⟩
  refine ⟨S1, S', h1, h2, hR, T, hocc, ha, ?_⟩
  have hh : rs.head hne * L < L * L := Nat.mul_lt_mul_of_pos_right (hrs _ (List.head_mem hne)) hL0
  rw [T.inWrap_iff ha hh]
  refine ⟨pre, k, _, hsplit, e2, e3, ?_⟩
  have hk : k ∈ rowsOrder L [rs.head hne] := by rw [e1]; simp
  have hkr : k / L = rs.head hne := by simpa using (mem_rowsOrder hL0).1 hk
  have hsub : ∀ s ∈ rowsOrder L [rs.head hne], s ∈ rowsOrder L rs := fun s hs =>
    (mem_rowsOrder hL0).2 (by rw [show s / L = rs.head hne by simpa using (mem_rowsOrder hL0).1 hs]; exact List.head_mem hne)
  have w := (row_walk (occ := (· ∈ rowsOrder L [rs.head hne])) hL0 hrow).mono hsub
  obtain ⟨u, _, hu, _⟩ := (row_walk (occ := (· ∈ rowsOrder L [rs.head hne])) hL0 hrow).meets_cols
    (fun s hs => hlt s (hsub s hs)) (by simp; omega) (Nat.mod_lt k hL0)
  have hur : u = rs.head hne := by
    have := (mem_rowsOrder hL0).1 (SiteConn.mem hu (by simpa using hrow 0 hL0))
    rw [mul_add_div_L (Nat.mod_lt k hL0)] at this
    simpa using this
  rw [hur, ← hkr, Nat.div_add_mod', hkr] at hu
  exact SiteConn.mono_mem hsub (hu.symm_occ (fun s hs => hlt s (hsub s hs)) (by simpa using hrow 0 hL0))

/-- C94, the bound is attained: placing every second row, `n ≤ L / 2` rows in all, leaves `n` clusters that all wrap; `wrapping_cluster_id` is
the row placed first. -/
theorem C94_every_second_row (hL : 3 ≤ L) (h : Start env .l0 L S) {n : Nat} (hn : 0 < n) (hn2 : 2 * n ≤ L)
    (draws : Nat → Nat) {fuel : Nat} (hf : n * L < fuel) (ds : Nat → Draw) :
    ∃ S1 S', S.setCustomIds ((rowsOrder L ((List.range n).map (2 * ·))).map Int.ofNat) false draws = .ok S1 ∧ S1.runOnce env .l0 fuel ds = .ok S' ∧
      S'.afterWrapping = true ∧ S'.lat.getSiteGid 0 = .ok S'.wrappingId ∧
      (∀ i < n, WrapsAt L S'.Occ (2 * i * L)) ∧ ∀ i < n, ∀ j < n, i ≠ j → S'.lat.getSiteGid (2 * i * L) ≠ S'.lat.getSiteGid (2 * j * L) := by
  have hL0 : 0 < L := by omega
  have hmem : ∀ r, r ∈ (List.range n).map (2 * ·) ↔ ∃ i < n, 2 * i = r := by intro r; simp
  have hne : (List.range n).map (2 * ·) ≠ [] := by simp; omega
  obtain ⟨S1, S', h1, h2, hR, T, hocc, ha, hw⟩ := h.rows hL (rs := (List.range n).map (2 * ·)) hne
    (fun r hr => by obtain ⟨i, hi, rfl⟩ := (hmem r).1 hr; omega) (List.nodup_range.map fun a b e => by simpa using e) draws (fuel := fuel)
    (by simpa using hf) ds
  have hh : ((List.range n).map (2 * ·)).head hne = 0 := by
    obtain ⟨m, rfl⟩ : ∃ m, n = m + 1 := ⟨n - 1, by omega⟩
    simp [List.head_map, List.head_range]
  rw [hh, Nat.zero_mul] at hw
  have hdiv : ∀ i, 2 * i * L / L = 2 * i := fun i => Nat.mul_div_cancel _ hL0
  have hlt : ∀ s, S'.Occ s → s < L * L := fun s => hR.occ_lt
  refine ⟨S1, S', h1, h2, ha, hw, ?_, ?_⟩
  · intro i hi
    exact row_wraps hL0 fun c hc => (hocc _).2 (by rw [mul_add_div_L hc]; exact (hmem _).2 ⟨i, hi, rfl⟩)
  · intro i hi j hj hij e
    have hc := (C07_same_gid_iff_connected hR ((hocc _).2 (by rw [hdiv]; exact (hmem _).2 ⟨i, hi, rfl⟩))
      ((hocc _).2 (by rw [hdiv]; exact (hmem _).2 ⟨j, hj, rfl⟩))).1 e
    have := rows_apart (P := (· = 2 * i)) hlt (by
      rintro s d hs hsd hP (rfl | rfl)
      · obtain ⟨m, hm, e⟩ := (hmem _).1 ((hocc _).1 hsd)
        rw [nbr_down_row hL0, hP, succ_mod_cases (by omega)] at e
        split at e <;> omega
      · obtain ⟨m, hm, e⟩ := (hmem _).1 ((hocc _).1 hsd)
        rw [nbr_up_row hL0, hP, pred_mod_cases (by omega)] at e
        split at e <;> omega) hc (hdiv i)
    rw [hdiv] at this
    omega

/-- The site count the code keeps for a cluster. -/
theorem Reach.siteCount_comp (h : Reach env v L S) {s : Nat} (hs : S.Occ s) : ∃ g : Nat, g < 2 * (L * L) ∧ S.lat.getSiteGid s = .ok (g : Int) ∧
    S.pool.siteCount g = .ok (siteComp L S.Occ s).card := by
  obtain ⟨hL, A, M, hA⟩ := h.sim
  have hV := (M.occ_iff s).1 hs
  have C := hA.inv.core
  rcases C.sgr _ hV.1 with h1 | h1
  · have := hV.2; omega
  · obtain ⟨g, hg, e⟩ := exists_nat_of_mem_gids (mem_gids.2 h1)
    refine ⟨g, hg, by rw [M.siteGid hV.1, e], ?_⟩
    rw [M.occ_eq, C.siteComp_slen hV, e]
    exact M.siteCount (natCast_mem_gids hg)

/-- C94, for every `L ≥ 5`: the wrapping cluster need not be the largest cluster that wraps.  If the first, the third and the fourth row are
placed in this order, a cluster of more bonds than the wrapping cluster wraps too and is not counted by `order_param_wrapping()`. -/
theorem C94_not_largest (hL : 5 ≤ L) (h : Start env .l0 L S) (draws : Nat → Nat) {fuel : Nat} (hf : 3 * L < fuel) (ds : Nat → Draw) :
    ∃ S1 S' t g m n, S.setCustomIds ((rowsOrder L [0, 2, 3]).map Int.ofNat) false draws = .ok S1 ∧ S1.runOnce env .l0 fuel ds = .ok S' ∧
      S'.afterWrapping = true ∧ WrapsAt L S'.Occ t ∧ S'.lat.getSiteGid t = .ok g ∧ g ≠ S'.wrappingId ∧
      S'.pool.bondCount S'.wrappingId = .ok m ∧ S'.pool.bondCount g = .ok n ∧ m < n := by
  classical
  have hL0 : 0 < L := by omega
  obtain ⟨S1, S', h1, h2, hR, T, hocc, ha, hw⟩ := h.rows (by omega) (rs := [0, 2, 3]) (by simp) (by simp; omega) (by simp) draws
    (fuel := fuel) (by simpa using hf) ds
  rw [show ([0, 2, 3] : List Nat).head (by simp) * L = 0 by simp] at hw
  have hlt : ∀ s, S'.Occ s → s < L * L := fun s => hR.occ_lt
  have o0 : S'.Occ 0 := (hocc 0).2 (by simp)
  have o2 : S'.Occ (2 * L) := (hocc _).2 (by rw [Nat.mul_div_cancel _ hL0]; simp)
  obtain ⟨g0, hg0, e0, c0⟩ := hR.siteCount_comp o0
  obtain ⟨g, hg, e2, c2⟩ := hR.siteCount_comp o2
  obtain ⟨n0, m, a1, a2, a3, a4⟩ := C55_bonds_of_sites hR hg0
  obtain ⟨n2, n, b1, b2, b3, b4⟩ := C55_bonds_of_sites hR hg
  have hn0 := Except.ok.inj (a1.symm.trans c0)
  have hn2 := Except.ok.inj (b1.symm.trans c2)
  have hwid : S'.wrappingId = g0 := (Except.ok.inj (e0.symm.trans hw)).symm
  have row0 : ∀ t, SiteConn L S'.Occ 0 t → t / L = 0 := fun t hc => rows_apart (P := (· = 0)) hlt (by
      rintro s d hs hsd hP (rfl | rfl)
      · have := (hocc _).1 hsd
        rw [nbr_down_row hL0, hP, Nat.mod_eq_of_lt (by omega)] at this
        simp at this
      · have := (hocc _).1 hsd
        rw [nbr_up_row hL0, hP, Nat.mod_eq_of_lt (by omega)] at this
        simp at this; omega) hc (by simp)
  have small : (siteComp L S'.Occ 0).card ≤ L := by
    calc _ ≤ (Finset.range L).card := Finset.card_le_card fun t ht => by
          simp only [siteComp, Finset.mem_filter, Finset.mem_range] at ht ⊢
          exact (Nat.div_eq_zero_iff_lt hL0).1 (row0 t ht.2.2)
      _ = L := Finset.card_range L
  have rowfull : ∀ r, r = 2 ∨ r = 3 → ∀ c < L, S'.Occ (r * L + c) := by
    rintro r hr c hc
    exact (hocc _).2 (by rw [mul_add_div_L hc]; rcases hr with rfl | rfl <;> simp)
  have conn : ∀ r, r = 2 ∨ r = 3 → ∀ c < L, SiteConn L S'.Occ (r * L) (r * L + c) := by
    intro r hr c hc
    induction c with
    | zero => exact .refl _
    | succ c ih =>
      refine (ih (by omega)).trans ?_
      have e : nbr L (r * L + c) .right = r * L + (c + 1) := by rw [nbr_right_rc (by omega), Nat.mod_eq_of_lt hc]
      rw [← e]
      exact .single .right (rowfull r hr c (by omega)) (by rw [e]; exact rowfull r hr _ hc)
  have step : SiteConn L S'.Occ (2 * L) (3 * L) := by
    have e : nbr L (2 * L) .down = 3 * L := by
      have := nbr_down_rc (L := L) (r := 2) (c := 0) hL0
      rwa [Nat.mod_eq_of_lt (by omega), Nat.add_zero, Nat.add_zero] at this
    rw [← e]
    exact .single .down o2 (by rw [e]; simpa using rowfull 3 (.inr rfl) 0 hL0)
  have big : 2 * L ≤ (siteComp L S'.Occ (2 * L)).card := by
    calc 2 * L = (Finset.Ico (2 * L) (4 * L)).card := by rw [Nat.card_Ico]; omega
      _ ≤ _ := Finset.card_le_card fun t ht => by
          have ht := Finset.mem_Ico.1 ht
          have hm := Nat.mod_lt t hL0
          have hdm := Nat.div_add_mod' t L
          have hr : t / L = 2 ∨ t / L = 3 := by
            have h1 : 2 ≤ t / L := (Nat.le_div_iff_mul_le hL0).2 ht.1
            have h2 : t / L < 4 := (Nat.div_lt_iff_lt_mul hL0).2 ht.2
            generalize t / L = x at h1 h2
            omega
          have ho := rowfull _ hr _ hm
          have hc := conn _ hr _ hm
          rw [hdm] at ho hc
          simp only [siteComp, Finset.mem_filter, Finset.mem_range]
          refine ⟨hlt t ho, ho, ?_⟩
          rcases hr with hr | hr <;> rw [hr] at hc
          · exact hc
          · exact step.trans hc
  refine ⟨S1, S', 2 * L, g, m, n, h1, h2, ha, row_wraps hL0 (rowfull 2 (.inl rfl)), e2, ?_, by rw [hwid]; exact a2, b2, by omega⟩
  rw [hwid]
  intro e
  have hc := (C07_same_gid_iff_connected hR o0 o2).1 (by rw [e0, e2, e])
  have := row0 _ hc
  rw [Nat.mul_div_cancel _ hL0] at this
  omega

/-- The same in the plane: as soon as the wrapping cluster wraps in two independent directions, the infinite clusters of the repeated configuration
consist of its sites only. -/
theorem C94_plane (h : Reach env v L S) {s : Nat} {a b : Int × Int} (ha : Walk L S.Occ s s a) (hb : Walk L S.Occ s s b)
    (hab : a.1 * b.2 ≠ a.2 * b.1) {p : Int × Int} (hp : (planeCluster L S.Occ p).Infinite) :
    S.lat.getSiteGid (siteAt L p) = S.lat.getSiteGid s := by
  obtain ⟨hL, _⟩ := h.sim
  exact C94_unique h ha hb hab ((wrapsAt_iff_infinite hL (fun s => h.occ_lt) p).2 hp)

/-- L = 4: rows 0 and 2 wrap side by side, and `C94_at_most` is met with equality. -/
example : ∃ S : Perc Unit, Reach demoEnv .l0 4 S ∧ WrapsAt 4 S.Occ 0 ∧ WrapsAt 4 S.Occ 8 ∧ S.lat.getSiteGid 0 ≠ S.lat.getSiteGid 8 := by
  obtain ⟨S, h, _⟩ := checkOps_reach (env := demoEnv) (v := .l0) (L := 4) (ops := []) (p := fun _ => true) (by decide +kernel)
  obtain ⟨S0, hS0⟩ := h.reset_total fun _ => 0
  obtain ⟨S1, S', h1, h2, _, _, hw, hne⟩ := C94_every_second_row (L := 4) (by omega) (Start.reset h hS0) (n := 2) (by omega) (by omega)
    (fun _ => 0) (fuel := 9) (by omega) fun _ => ⟨0, 0⟩
  exact ⟨S', .step (.runOnce 9 _) (.step (.setIds _ false _) (Start.reset h hS0).reach h1) h2, hw 0 (by omega), hw 1 (by omega), hne 0 (by omega) 1 (by omega) (by omega)⟩

/-- L = 3: a complete row and a complete column; the two walks of `C94_unique` are theirs. -/
example : ∃ S : Perc Unit, Reach demoEnv .l0 3 S ∧ (∀ c < 3, S.lat.getSiteGid (0 * 3 + c) = .ok S.wrappingId) ∧
    (∀ r < 3, S.lat.getSiteGid (r * 3 + 0) = .ok S.wrappingId) ∧ 0 ≤ S.wrappingId ∧ WrapsAt 3 S.Occ 0 := by
  obtain ⟨S, h, hp⟩ := checkOps_reach (env := demoEnv) (v := .l0) (L := 3) (ops := placeDetect [0, 1, 2, 3, 6] 5)
    (p := fun S => S.afterWrapping && isOk (S.lat.getSiteGid 0) S.wrappingId && isOk (S.lat.getSiteGid 1) S.wrappingId && isOk (S.lat.getSiteGid 2) S.wrappingId
      && isOk (S.lat.getSiteGid 3) S.wrappingId && isOk (S.lat.getSiteGid 6) S.wrappingId && decide (0 ≤ S.wrappingId)) (by decide +kernel)
  simp only [Bool.and_eq_true, decide_eq_true_eq, isOk_iff] at hp
  obtain ⟨⟨⟨⟨⟨⟨h1, h2⟩, h3⟩, h4⟩, h5⟩, h6⟩, h7⟩ := hp
  have hrow : ∀ c < 3, S.lat.getSiteGid (0 * 3 + c) = .ok S.wrappingId := by
    intro c hc
    obtain rfl | rfl | rfl : c = 0 ∨ c = 1 ∨ c = 2 := by omega
    all_goals assumption
  refine ⟨S, h, hrow, ?_, h7, ?_⟩
  · intro r hr
    obtain rfl | rfl | rfl : r = 0 ∨ r = 1 ∨ r = 2 := by omega
    all_goals assumption
  · obtain ⟨_, A, M, hA⟩ := h.sim
    refine row_wraps (r := 0) (by omega) fun c hc => (M.occ_iff _).2 ⟨by omega, ?_⟩
    have := hrow c hc
    rw [M.siteGid (by omega)] at this
    rw [Except.ok.inj this]; exact h7

end SqPerc
