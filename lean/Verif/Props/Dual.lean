import Verif.Proof.Fewest
import Verif.Props.Lists
/-
Property C95: wrapping is the opposite of empty paths crossing on the periodic lattice.
Property C96: the latest possible wrapping, exactly.
-/
namespace SqPerc

variable {L : Nat} {occ : Nat → Prop}
variable {α : Type} {env : Env α} {v : Variant} {S : Perc α} {seq : List Nat}

/-! ### C95 -/

/-- C95: with detection after every placement and `L ≥ 3`, `detect_wrapping()` returns False exactly if the empty sites contain two closed
paths, with straight and diagonal steps, that go around the periodic lattice in independent directions. -/
theorem C95_detect (hL : 3 ≤ L) (T : Trace env v L S seq) (hne : seq ≠ []) :
    ∃ S' b, S.detectWrapping = .ok (S', b) ∧
      (b = false ↔ ∃ w w', EmptyLoop L (· ∈ seq) w ∧ EmptyLoop L (· ∈ seq) w' ∧ w.1 * w'.2 ≠ w.2 * w'.1) := by
  obtain ⟨S', b, h1, h2, h3⟩ := C17_detect_iff hL T hne
  refine ⟨S', b, h1, ?_⟩
  have e : S.Occ = (· ∈ seq) := funext fun s => propext (h3 s)
  rw [e, wraps_iff_no_crossing (by omega) T.seq_nodup_lt.2] at h2
  rw [← not_iff_not, ← h2]
  simp

/-- C95: the same for `after_wrapping`. -/
theorem C95_after_wrapping (hL : 3 ≤ L) (T : Trace env v L S seq) :
    S.afterWrapping = false ↔ ∃ w w', EmptyLoop L (· ∈ seq) w ∧ EmptyLoop L (· ∈ seq) w' ∧ w.1 * w'.2 ≠ w.2 * w'.1 := by
  have h := (T.aw_iff.trans (and_iff_right hL)).trans (wraps_iff_no_crossing (by omega) T.seq_nodup_lt.2)
  rw [← not_iff_not, ← h]
  simp

/-- C95, after any history: once wrapping was detected, all closed paths of empty sites are parallel to all closed walks in the wrapping
cluster, and to each other. -/
theorem C95_any_history (h : Reach env v L S) (ha : S.afterWrapping = true) {w : Int × Int} (hw : EmptyLoop L S.Occ w) :
    (∀ s u, Walk L S.Occ s s u → u.1 * w.2 = u.2 * w.1) ∧ ∀ w', EmptyLoop L S.Occ w' → w.1 * w'.2 = w.2 * w'.1 := by
  have hocc : ∀ s, S.Occ s → s < L * L := fun s => h.occ_lt
  have hL := h.sim.1
  obtain ⟨g, bs, hg, _, _, _, _, s, h1, h2, u, hu, h3⟩ := C20_wrapping_cluster h ha
  refine ⟨fun s u hwalk => hwalk.parallel_empty hocc hw, fun w' hw' => ?_⟩
  by_contra hne
  exact (wraps_iff_no_crossing hL hocc).1 ⟨s, u, hu, h3⟩ ⟨w, w', hw, hw', hne⟩

/-- A row of empty sites is a closed path of empty sites. -/
theorem emptyLoop_row (hL : 0 < L) {r : Nat} (hr : r < L) (h : ∀ c < L, ¬ occ (r * L + c)) : EmptyLoop L occ (0, (L : Int)) := by
  have em : ∀ x : Int, ¬ occ (siteAt L (r, x)) := by
    intro x
    have := h _ (emod_toNat_lt hL x)
    unfold siteAt
    simpa [Int.emod_eq_of_lt (show (0 : Int) ≤ r by omega) (show (r : Int) < L by omega)] using this
  refine ⟨(r, 0), ?_, ?_⟩
  · rw [siteAt_eq_iff hL]; simp
  · have : ∀ n : Nat, EmptyConn L occ (r, 0) ((r : Int), (n : Int)) := by
      intro n
      induction n with
      | zero => exact .refl
      | succ n ih =>
        refine ih.tail ⟨em _, em _, ?_⟩
        simp only [Near]
        push_cast
        omega
    simpa using this L

/-- A column of empty sites is a closed path of empty sites. -/
theorem emptyLoop_col (hL : 0 < L) {c : Nat} (hc : c < L) (h : ∀ r < L, ¬ occ (r * L + c)) : EmptyLoop L occ ((L : Int), 0) := by
  have em : ∀ x : Int, ¬ occ (siteAt L (x, c)) := by
    intro x
    have := h _ (emod_toNat_lt hL x)
    unfold siteAt
    simpa [Int.emod_eq_of_lt (show (0 : Int) ≤ c by omega) (show (c : Int) < L by omega)] using this
  refine ⟨(0, c), ?_, ?_⟩
  · rw [siteAt_eq_iff hL]; simp
  · have : ∀ n : Nat, EmptyConn L occ (0, c) ((n : Int), (c : Int)) := by
      intro n
      induction n with
      | zero => exact .refl
      | succ n ih =>
        refine ih.tail ⟨em _, em _, ?_⟩
        simp only [Near]
        push_cast
        omega
    simpa using this L

/-- C95, for instance: as long as one row and one column are empty, wrapping has not been detected, whatever the history. -/
theorem C95_empty_lines (h : Reach env v L S) {r c : Nat} (hr : r < L) (hc : c < L) (h1 : ∀ x < L, ¬ S.Occ (r * L + x))
    (h2 : ∀ x < L, ¬ S.Occ (x * L + c)) : S.afterWrapping = false := by
  by_contra hn
  have hL : 0 < L := by omega
  have := (C95_any_history h (by simpa using hn) (emptyLoop_row hL hr h1)).2 _ (emptyLoop_col hL hc h2)
  simp at this
  omega

/-- C95, for instance: as soon as all closed paths of empty sites are parallel to one direction, wrapping has been detected (with detection
after every placement and `L ≥ 3`); in particular if there are none. -/
theorem C95_blocked (hL : 3 ≤ L) (T : Trace env v L S seq) {d : Int × Int} (hd : d ≠ 0)
    (h : ∀ w, EmptyLoop L (· ∈ seq) w → d.1 * w.2 = d.2 * w.1) : S.afterWrapping = true := by
  by_contra hn
  rw [Bool.not_eq_true, C95_after_wrapping hL T] at hn
  obtain ⟨w, w', h1, h2, h3⟩ := hn
  have e1 := h w h1
  have e2 := h w' h2
  apply h3
  by_cases hv1 : d.1 = 0
  · have hv2 : d.2 ≠ 0 := fun h => hd (Prod.ext hv1 h)
    rw [hv1, zero_mul, eq_comm, mul_eq_zero] at e1 e2
    rw [e1.resolve_left hv2, e2.resolve_left hv2]; ring
  · apply mul_left_cancel₀ hv1
    linear_combination w.1 * e2 - w'.1 * e1

/-- L = 3: with the sites 0, 1, 3, 4 placed, row 2 and column 2 are empty and nothing wraps; with 0, 1, 2 placed, everything empty lies in
rows 1 and 2, and the empty row is parallel to the occupied one. -/
example : (∃ S : Perc Unit, Reach demoEnv .l0 3 S ∧ (∀ x < 3, ¬ S.Occ (2 * 3 + x)) ∧ (∀ x < 3, ¬ S.Occ (x * 3 + 2)) ∧ S.Occ 0) ∧
    ∃ S : Perc Unit, Reach demoEnv .l0 3 S ∧ S.afterWrapping = true ∧ EmptyLoop 3 S.Occ (0, 3) := by
  have occ_of : ∀ {S : Perc Unit} {s : Nat}, S.Occ s → (match S.lat.getSite s with | .ok t => decide (0 ≤ t.gid) | .error _ => false) = true := by
    rintro S s ⟨t, h1, h2⟩
    rw [h1]; exact h2
  constructor
  · obtain ⟨S, h, hp⟩ := checkOps_reach (env := demoEnv) (v := .l0) (L := 3) (ops := placeDetect [0, 1, 3, 4] 4)
      (p := fun S => [6, 7, 8, 2, 5].all (fun s => !(match S.lat.getSite s with | .ok t => decide (0 ≤ t.gid) | .error _ => false)) &&
        (match S.lat.getSite 0 with | .ok t => decide (0 ≤ t.gid) | .error _ => false)) (by decide +kernel)
    rw [Bool.and_eq_true, List.all_eq_true] at hp
    have hn : ∀ s ∈ [6, 7, 8, 2, 5], ¬ S.Occ s := fun s hs ho => by
      have := hp.1 s hs
      rw [occ_of ho] at this
      cases this
    refine ⟨S, h, ?_, ?_, ?_⟩
    · intro x hx; exact hn _ (by simp only [List.mem_cons]; omega)
    · intro x hx; exact hn _ (by simp only [List.mem_cons]; omega)
    · cases e : S.lat.getSite 0 with
      | error _ => rw [e] at hp; cases hp.2
      | ok t => rw [e] at hp; exact ⟨t, e, hp.2⟩
  · obtain ⟨S, h, hp⟩ := checkOps_reach (env := demoEnv) (v := .l0) (L := 3) (ops := placeDetect [0, 1, 2] 3)
      (p := fun S => [3, 4, 5].all (fun s => !(match S.lat.getSite s with | .ok t => decide (0 ≤ t.gid) | .error _ => false)) && S.afterWrapping)
      (by decide +kernel)
    rw [Bool.and_eq_true, List.all_eq_true] at hp
    refine ⟨S, h, hp.2, emptyLoop_row (by omega) (r := 1) (by omega) fun c hc ho => ?_⟩
    have := hp.1 (1 * 3 + c) (by simp only [List.mem_cons]; omega)
    rw [occ_of ho] at this
    cases this

/-! ### C96 -/

/-- C96: with detection after every placement, for `L ≥ 3` wrapping has been detected as soon as fewer than `L + ⌊(L - 1) / 2⌋` sites are
empty. -/
theorem C96_must_wrap (hL : 3 ≤ L) (T : Trace env v L S seq) (h : L * L < S.occupiedCount + L + (L - 1) / 2) : S.afterWrapping = true := by
  obtain ⟨hq, hlt⟩ := T.seq_nodup_lt
  rw [T.reports.count] at h
  exact T.aw_iff.2 ⟨hL, wraps_of_fewer_empty (by omega) hq hlt h⟩

/-- C96: with detection after every placement, wrapping is detected at the latest with site number `L² - L - ⌊(L - 1) / 2⌋ + 1`. -/
theorem C96_critical_upper (T : Trace env v L S seq) (ha : S.afterWrapping = true) : S.pcOccupied + L + (L - 1) / 2 ≤ L * L + 1 := by
  obtain ⟨_, A, M, hA, I⟩ := T.sim
  have haw : A.aw = true := M.aw ▸ ha
  obtain ⟨pre, k, post, h1, h2, h3, h4, _⟩ := I.on haw
  obtain ⟨hq, hlt⟩ := T.seq_nodup_lt
  have hL : 0 < L := by
    have := (T.aw_iff.1 ha).1
    omega
  rw [M.pco, h4]
  by_contra hc
  refine h2 (wraps_of_fewer_empty hL ?_ ?_ (by omega))
  · rw [h1] at hq; exact (List.nodup_append.1 hq).1
  · intro s hs; exact hlt s (by rw [h1]; simp [hs])

/-- C96: in exact arithmetic `get_pc() ≤ 1 - (L + ⌊(L - 1) / 2⌋ - 1) / L²`. -/
theorem C96_pc_upper {so : SetOrder} {S : Perc ℝ} (T : Trace (realEnv so) v L S seq) (ha : S.afterWrapping = true) :
    S.getPc (realEnv so) ≤ 1 - ((L : ℝ) + ((L - 1) / 2 : Nat) - 1) / (L : ℝ) ^ 2 := by
  have h1 := C96_critical_upper T ha
  have hL : 0 < L := by
    have := (T.aw_iff.1 ha).1
    omega
  obtain ⟨_, A, M, hA, I⟩ := T.sim
  have hN : S.lat.siteCount = L * L := by rw [M.lat, mkLat_siteCount]
  have e1 : S.getPc (realEnv so) = (S.pcOccupied : ℝ) / ((L * L : Nat) : ℝ) := by
    rw [Perc.getPc, if_pos ha, hN]; rfl
  have hL' : (0 : ℝ) < L := by exact_mod_cast hL
  have h2 : (S.pcOccupied : ℝ) + L + ((L - 1) / 2 : Nat) ≤ L * L + 1 := by exact_mod_cast h1
  rw [e1, Nat.cast_mul, div_le_iff₀ (by positivity)]
  have : (1 - ((L : ℝ) + ((L - 1) / 2 : Nat) - 1) / (L : ℝ) ^ 2) * (L * L) = L * L - (L + ((L - 1) / 2 : Nat) - 1) := by
    field_simp
  rw [this]; linarith

/-- The sites placed last: the antidiagonal and half of the diagonal. -/
def lastSites (L s : Nat) : Bool := s / L + s % L == L || (s / L == s % L && 2 * (s / L) < L)

/-- All other sites, then these. -/
def latestOrder (L : Nat) : List Nat := (List.range (L * L)).filter (fun s => !lastSites L s) ++ (List.range (L * L)).filter (lastSites L)

theorem latestOrder_perm (L : Nat) : (latestOrder L).Perm (List.range (L * L)) :=
  List.perm_append_comm.trans (List.filter_append_perm (lastSites L) (List.range (L * L)))

theorem lastSites_rc {r c : Nat} (hc : c < L) : lastSites L (r * L + c) = true ↔ r + c = L ∨ (r = c ∧ 2 * r < L) := by
  rw [lastSites, mul_add_div_L hc, mul_add_mod_L hc]
  simp

theorem card_lastSites (hL : 0 < L) : ((List.range (L * L)).filter (lastSites L)).length ≤ L + (L - 1) / 2 := by
  classical
  have e : ((List.range (L * L)).filter (lastSites L)).length = ((List.range (L * L)).filter (lastSites L)).toFinset.card := by
    rw [List.toFinset_card_of_nodup (List.nodup_range.filter _)]
  rw [e]
  have hsub : ((List.range (L * L)).filter (lastSites L)).toFinset ⊆ (Finset.range (L - 1)).image (fun i => (i + 1) * L + (L - (i + 1))) ∪
      (Finset.range ((L - 1) / 2 + 1)).image fun i => i * L + i := by
    intro s hs
    simp only [List.mem_toFinset, List.mem_filter, List.mem_range] at hs
    obtain ⟨hs, hg⟩ := hs
    obtain ⟨r, c, hr, hc, rfl⟩ := exists_rc hs
    rw [lastSites_rc hc] at hg
    rw [Finset.mem_union, Finset.mem_image, Finset.mem_image]
    rcases hg with h | ⟨rfl, h⟩
    · refine .inl ⟨r - 1, Finset.mem_range.2 (by omega), ?_⟩
      rw [show r - 1 + 1 = r by omega, show L - r = c by omega]
    · exact .inr ⟨r, Finset.mem_range.2 (by omega), rfl⟩
  refine (Finset.card_le_card hsub).trans ((Finset.card_union_le _ _).trans ?_)
  have h1 := Finset.card_image_le (s := Finset.range (L - 1)) (f := fun i => (i + 1) * L + (L - (i + 1)))
  have h2 := Finset.card_image_le (s := Finset.range ((L - 1) / 2 + 1)) (f := fun i => i * L + i)
  rw [Finset.card_range] at h1 h2
  omega

/-- The other sites do not wrap: they can be drawn in the plane. -/
theorem others_not_wrap : ¬ Wraps L (· ∈ (List.range (L * L)).filter (fun s => !lastSites L s)) := by
  rintro ⟨s, v, hv, h⟩
  apply hv
  have key : ∀ {r c : Nat}, r < L → c < L → (r * L + c ∈ (List.range (L * L)).filter (fun s => !lastSites L s) ↔ ¬ (r + c = L ∨ (r = c ∧ 2 * r < L))) := by
    intro r c hr hc
    rw [List.mem_filter, List.mem_range, Bool.not_eq_true', ← Bool.not_eq_true, lastSites_rc hc]
    exact and_iff_right (rc_lt hr hc)
  let f : Nat → Int × Int := fun s => if L < s / L + s % L then (((s / L : Nat) : Int), ((s % L : Nat) : Int) - L)
    else if s % L < s / L then (((s / L : Nat) : Int), ((s % L : Nat) : Int)) else (((s / L : Nat) : Int) + L, ((s % L : Nat) : Int) - L)
  have fr : ∀ {r c : Nat}, c < L → f (r * L + c) = if L < r + c then ((r : Int), (c : Int) - L) else if c < r then ((r : Int), (c : Int)) else ((r : Int) + L, (c : Int) - L) := by
    intro r c hc
    show (if _ then _ else _) = _
    rw [mul_add_div_L hc, mul_add_mod_L hc]
  have := h.eq_potential f (by
    intro t d h1 h2
    have ht : t < L * L := List.mem_range.1 (List.mem_filter.1 h1).1
    obtain ⟨r, c, hr, hc, rfl⟩ := exists_rc ht
    rw [key hr hc] at h1
    cases d with
    | right =>
      rw [nbr_right_rc hc] at h2 ⊢
      rw [key hr (succ_mod_lt hc)] at h2
      rw [fr (succ_mod_lt hc), fr hc]
      rw [succ_mod_cases hc] at h2 ⊢
      by_cases hw : c + 1 = L
      · rw [if_pos hw] at h2 ⊢
        rw [if_neg (by omega), if_pos (by omega), if_pos (by omega)]
        simp only [Dir.vec, Prod.mk_sub_mk, Prod.mk.injEq]; omega
      · rw [if_neg hw] at h2 ⊢
        split_ifs <;> simp only [Dir.vec, Prod.mk_sub_mk, Prod.mk.injEq] <;> omega
    | down =>
      rw [nbr_down_rc hc] at h2 ⊢
      rw [key (succ_mod_lt hr) hc] at h2
      rw [fr hc, fr hc]
      rw [succ_mod_cases hr] at h2 ⊢
      by_cases hw : r + 1 = L
      · rw [if_pos hw] at h2 ⊢
        rw [if_neg (by omega), if_neg (by omega), if_pos (by omega)]
        simp only [Dir.vec, Prod.mk_sub_mk, Prod.mk.injEq]; omega
      · rw [if_neg hw] at h2 ⊢
        split_ifs <;> simp only [Dir.vec, Prod.mk_sub_mk, Prod.mk.injEq] <;> omega
    | left =>
      rw [nbr_left_rc hc] at h2 ⊢
      rw [key hr (pred_mod_lt hc)] at h2
      rw [fr (pred_mod_lt hc), fr hc]
      rw [pred_mod_cases hc] at h2 ⊢
      by_cases hw : c = 0
      · rw [if_pos hw] at h2 ⊢
        rw [if_pos (by omega), if_neg (by omega), if_pos (by omega)]
        simp only [Dir.vec, Prod.mk_sub_mk, Prod.mk.injEq]; omega
      · rw [if_neg hw] at h2 ⊢
        split_ifs <;> simp only [Dir.vec, Prod.mk_sub_mk, Prod.mk.injEq] <;> omega
    | up =>
      rw [nbr_up_rc hc] at h2 ⊢
      rw [key (pred_mod_lt hr) hc] at h2
      rw [fr hc, fr hc]
      rw [pred_mod_cases hr] at h2 ⊢
      by_cases hw : r = 0
      · rw [if_pos hw] at h2 ⊢
        rw [if_pos (by omega), if_neg (by omega), if_neg (by omega)]
        simp only [Dir.vec, Prod.mk_sub_mk, Prod.mk.injEq]; omega
      · rw [if_neg hw] at h2 ⊢
        split_ifs <;> simp only [Dir.vec, Prod.mk_sub_mk, Prod.mk.injEq] <;> omega)
  rw [this, sub_self]

/-- C96, the bound is attained for every `L ≥ 3`: if the antidiagonal and half of the diagonal are placed last, `run_once()` detects wrapping
with site number `L² - L - ⌊(L - 1) / 2⌋ + 1`. -/
theorem C96_attained (hL : 3 ≤ L) (h : Start env .l0 L S) (draws : Nat → Nat) {fuel : Nat} (hf : L * L < fuel) (ds : Nat → Draw) :
    ∃ S1 S', S.setCustomIds ((latestOrder L).map Int.ofNat) false draws = .ok S1 ∧ S1.runOnce env .l0 fuel ds = .ok S' ∧
      S'.afterWrapping = true ∧ S'.pcOccupied + L + (L - 1) / 2 = L * L + 1 := by
  have hlen : (latestOrder L).length = L * L := by rw [(latestOrder_perm L).length_eq, List.length_range]
  have hmap : ∀ l : List Nat, (l.map Int.ofNat).map Int.toNat = l := fun l => by rw [List.map_map]; exact List.map_id _
  obtain ⟨S1, S', seq, h1, h2, T, e⟩ := C30_run_once rfl h (ids := (latestOrder L).map Int.ofNat) (by
      intro e
      have := congrArg List.length e
      rw [List.length_map, hlen, List.length_nil] at this
      rcases Nat.mul_eq_zero.1 this with h | h <;> omega) (by
      intro i hi
      obtain ⟨s, hs, rfl⟩ := List.mem_map.1 hi
      have := List.mem_range.1 ((latestOrder_perm L).mem_iff.1 hs)
      refine ⟨Int.natCast_nonneg s, ?_⟩
      show (s : Int) < _
      exact_mod_cast this) (((latestOrder_perm L).nodup_iff.2 List.nodup_range).map fun _ _ e => Int.ofNat.inj e) draws (fuel := fuel)
    (by rw [List.length_map, hlen]; exact hf) ds
  have e : seq = latestOrder L := by
    have := congrArg (List.map Int.toNat) e
    rwa [hmap, hmap] at this
  subst e
  have ha : S'.afterWrapping = true := C96_must_wrap hL T (by rw [T.reports.count, hlen]; omega)
  refine ⟨S1, S', h1, h2, ha, ?_⟩
  have hup := C96_critical_upper T ha
  obtain ⟨_, A, M, hA, I⟩ := T.sim
  obtain ⟨pre, k, post, e1, e2, e3, e4, _⟩ := I.on (M.aw ▸ ha)
  rw [M.pco, e4] at hup ⊢
  have hc := card_lastSites (L := L) (by omega)
  have hq : L * L = ((List.range (L * L)).filter fun s => !lastSites L s).length + ((List.range (L * L)).filter (lastSites L)).length := by
    rw [← List.length_append]; exact hlen.symm
  by_contra hne
  refine others_not_wrap (L := L) (e3.wraps.mono fun s hs => ?_)
  have h3 : pre ++ [k] <+: latestOrder L := ⟨post, by rw [e1]; simp⟩
  have h4 : (List.range (L * L)).filter (fun s => !lastSites L s) <+: latestOrder L := ⟨_, rfl⟩
  exact (List.prefix_of_prefix_length_le h3 h4 (by rw [List.length_append, List.length_singleton]; omega)).subset hs

/-- L = 3 and L = 4: wrapping sets in with sites number 6 and 12 of the orders of `C96_attained`. -/
example : (∃ S : Perc Unit, Reach demoEnv .l0 3 S ∧ S.afterWrapping = true ∧ S.pcOccupied = 6) ∧
    ∃ S : Perc Unit, Reach demoEnv .l0 4 S ∧ S.afterWrapping = true ∧ S.pcOccupied = 12 := by
  constructor
  · obtain ⟨S, h, _⟩ := checkOps_reach (env := demoEnv) (v := .l0) (L := 3) (ops := []) (p := fun _ => true) (by decide +kernel)
    obtain ⟨S0, hS0⟩ := h.reset_total fun _ => 0
    obtain ⟨S1, S', h1, h2, ha, hp⟩ := C96_attained (L := 3) (by omega) (Start.reset h hS0) (fun _ => 0) (fuel := 10) (by omega) fun _ => ⟨0, 0⟩
    exact ⟨S', .step (.runOnce 10 _) (.step (.setIds _ false _) (Start.reset h hS0).reach h1) h2, ha, by omega⟩
  · obtain ⟨S, h, _⟩ := checkOps_reach (env := demoEnv) (v := .l0) (L := 4) (ops := []) (p := fun _ => true) (by decide +kernel)
    obtain ⟨S0, hS0⟩ := h.reset_total fun _ => 0
    obtain ⟨S1, S', h1, h2, ha, hp⟩ := C96_attained (L := 4) (by omega) (Start.reset h hS0) (fun _ => 0) (fuel := 17) (by omega) fun _ => ⟨0, 0⟩
    exact ⟨S', .step (.runOnce 17 _) (.step (.setIds _ false _) (Start.reset h hS0).reach h1) h2, ha, by omega⟩

end SqPerc
