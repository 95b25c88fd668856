import Verif.Props.ShortestPath
import Verif.Props.Clusters
import Verif.Props.Entropy
/-
C46 (get_four_neighbor_sites), C48 (test_run_once), C50 (merge_clusters, first version)
-/
namespace SqPerc
variable {α : Type} {env : Env α} {v : Variant} {L : Nat} {S S' : Perc α}

/-! ## C46 `get_four_neighbor_sites` -/

/-- The two ends of a bond of `s`, `s` first or last. -/
def pairOf (s n : Nat) (first : Bool) : List Nat := if first then [s, n] else [n, s]

theorem bondSites_pair (hL : 2 ≤ L) {s : Nat} (hs : s < L * L) (d : Dir) :
    bondSites L (bondAt L s d) = pairOf s (nbr L s d) (decide (s < nbr L s d)) := by
  have hne := nbr_ne hL hs d
  unfold bondSites pairOf
  rcases bondEnds_bondAt hs d with e | e <;> rw [e] <;> simp only [decide_eq_true_eq] <;> split <;> simp <;> omega

/-- Removing `s` while iterating over the four pairs: the result contains the other ends in order, and all copies of `s` are gone exactly for
the listed patterns. -/
theorem removeWhileIterating_pairs {s a b c d : Nat} (ha : a ≠ s) (hb : b ≠ s) (hc : c ≠ s) (hd : d ≠ s) (x y z w : Bool) :
    ((Perc.removeWhileIterating s 8 0 (pairOf s a x ++ pairOf s b y ++ pairOf s c z ++ pairOf s d w)).length = 4 →
      Perc.removeWhileIterating s 8 0 (pairOf s a x ++ pairOf s b y ++ pairOf s c z ++ pairOf s d w) = [a, b, c, d]) ∧
    ((Perc.removeWhileIterating s 8 0 (pairOf s a x ++ pairOf s b y ++ pairOf s c z ++ pairOf s d w)).length = 4 ↔
      (w = true → z = true) ∧ (z = true → y = true) ∧ (y = true → x = true)) := by
  cases x <;> cases y <;> cases z <;> cases w <;>
    simp [pairOf, Perc.removeWhileIterating, ha, hb, hc, hd]

/-- The sites at which the method works: in row 0 only the corner `(0, 0)`, in the last row all but `(L - 1, 0)`, in the other rows all but
the last column. -/
def FourOk (L r c : Nat) : Prop := (r = 0 → c = 0) ∧ (c = 0 → r + 1 ≠ L) ∧ (r + 1 ≠ L → c + 1 ≠ L)

/-- **C46**, exact: for `L ≥ 2` and every site, in every reachable state, the method returns the four neighbours (right, lower, left, upper) at
the sites `FourOk` and raises AssertionError at all others. -/
theorem C46_exact (hL : 2 ≤ L) (h : Reach env v L S) {r c : Nat} (hr : r < L) (hc : c < L) :
    (FourOk L r c → S.getFourNeighborSites (r * L + c) = .ok (Dir.all.map (nbr L (r * L + c)))) ∧
    (¬ FourOk L r c → S.getFourNeighborSites (r * L + c) = .error .assertionError) := by
  obtain ⟨_, A, M, hA⟩ := h.sim
  have hs := mul_add_lt hr hc
  have hm := nbr_ne hL hs
  generalize hsd : r * L + c = s at *
  obtain ⟨k1, k2⟩ := removeWhileIterating_pairs (hm .right) (hm .down) (hm .left) (hm .up) (decide (s < nbr L s .right))
    (decide (s < nbr L s .down)) (decide (s < nbr L s .left)) (decide (s < nbr L s .up))
  have hpat : ((decide (s < nbr L s .up) = true → decide (s < nbr L s .left) = true) ∧
      (decide (s < nbr L s .left) = true → decide (s < nbr L s .down) = true) ∧
      (decide (s < nbr L s .down) = true → decide (s < nbr L s .right) = true)) ↔ FourOk L r c := by
    have h1 : s < nbr L s .right ↔ c + 1 ≠ L := by
      rw [← hsd, nbr_right_rc hc, succ_mod_cases hc]; split <;> omega
    have h2 : s < nbr L s .left ↔ c = 0 := by
      rw [← hsd, nbr_left_rc hc, pred_mod_cases hc]; split <;> omega
    have h3 : s < nbr L s .down ↔ r + 1 ≠ L := by
      rw [← hsd, nbr_down_rc hc, succ_mod_cases hr]
      split
      · have := Nat.zero_le (r * L); omega
      · rw [Nat.succ_mul]; omega
    have h4 : s < nbr L s .up ↔ r = 0 := by
      rw [← hsd, nbr_up_rc hc, pred_mod_cases hr]
      split
      · rename_i h0
        subst h0
        have : 1 * L ≤ (L - 1) * L := Nat.mul_le_mul_right L (by omega)
        omega
      · have : (r - 1) * L + L = r * L := by rw [← Nat.succ_mul]; congr 1; omega
        omega
    simp only [decide_eq_true_eq, h1, h2, h3, h4, FourOk]
  have hrun : S.getFourNeighborSites s = (do
      let sites := Perc.removeWhileIterating s 8 0 (pairOf s (nbr L s .right) (decide (s < nbr L s .right)) ++
        pairOf s (nbr L s .down) (decide (s < nbr L s .down)) ++ pairOf s (nbr L s .left) (decide (s < nbr L s .left)) ++
        pairOf s (nbr L s .up) (decide (s < nbr L s .up)))
      pyAssert (decide (sites.length = 4))
      return sites : Py (List Nat)) := by
    have hlist : (siteBonds L s).mapM (mkLat L A.V).getNeighborSites = (.ok [bondSites L (bondAt L s .right), bondSites L (bondAt L s .down),
        bondSites L (bondAt L s .left), bondSites L (bondAt L s .up)] : Py (List (List Nat))) := by
      simp only [siteBonds, List.mapM_cons, List.mapM_nil, getNeighborSites_mk (bondAt_lt hs _), bind, Except.bind, pure, Except.pure]
    simp only [Perc.getFourNeighborSites, M.lat, getNeighborBonds_mk hs, bind, Except.bind, hlist, bondSites_pair hL hs]
    simp only [List.flatten_cons, List.flatten_nil, List.append_nil, List.append_assoc]
    have hp : ∀ n b, (pairOf s n b).length = 2 := by intro n b; cases b <;> rfl
    simp only [List.length_append, hp]
  rw [hrun]
  rw [hpat] at k2
  constructor
  · intro hf
    have e := k2.2 hf
    rw [k1 e]
    rfl
  · intro hf
    have e := fun h => hf (k2.1 h)
    simp only [pyAssert, decide_eq_true_eq, if_neg e, bind, Except.bind]

/-- **C46**: interior sites work. -/
theorem C46_interior (hL : 2 ≤ L) (h : Reach env v L S) {r c : Nat} (hr0 : 0 < r) (hr : r + 1 < L) (hc0 : 0 < c) (hc : c + 1 < L) :
    S.getFourNeighborSites (r * L + c) = .ok (Dir.all.map (nbr L (r * L + c))) :=
  (C46_exact hL h (by omega) (by omega)).1 ⟨by omega, by omega, by omega⟩

/-- **C46**: the sites of the last column raise AssertionError, except the one in the last row. -/
theorem C46_last_column_raises (hL : 2 ≤ L) (h : Reach env v L S) {r : Nat} (hr : r + 1 < L) :
    S.getFourNeighborSites (r * L + (L - 1)) = .error .assertionError :=
  (C46_exact hL h (by omega) (by omega)).2 fun hf => hf.2.2 (by omega) (by omega)

/-- **C46**: so do all sites of the first row but the first, and the first site of the last row. -/
theorem C46_first_row_raises (hL : 2 ≤ L) (h : Reach env v L S) :
    (∀ c, 0 < c → c < L → S.getFourNeighborSites c = .error .assertionError) ∧
    S.getFourNeighborSites ((L - 1) * L) = .error .assertionError := by
  constructor
  · intro c h0 hc
    have := (C46_exact hL h (r := 0) (c := c) (by omega) hc).2 fun hf => by have := hf.1 rfl; omega
    simpa using this
  · exact (C46_exact hL h (r := L - 1) (c := 0) (by omega) (by omega)).2 fun hf => hf.2.1 rfl (by omega)

/-- **C46**: for `L = 1` the single site is its own neighbour and the method returns it four times. -/
theorem C46_length_one (h : Reach env v 1 S) : S.getFourNeighborSites 0 = .ok [0, 0, 0, 0] := by
  obtain ⟨_, A, M, hA⟩ := h.sim
  have : (mkLat 1 A.V).getNeighborBonds 0 = .ok [0, 1, 0, 1] := getNeighborBonds_mk (by decide)
  have e0 : (mkLat 1 A.V).getNeighborSites 0 = .ok [0, 0] := getNeighborSites_mk (by decide)
  have e1 : (mkLat 1 A.V).getNeighborSites 1 = .ok [0, 0] := getNeighborSites_mk (by decide)
  simp only [Perc.getFourNeighborSites, M.lat, this, bind, Except.bind, List.mapM_cons, List.mapM_nil, e0, e1, pure, Except.pure]
  rfl

/-- On the `3 × 3` lattice the centre works and site 5 fails. -/
example : ∃ S, Reach demoEnv .l1 3 S ∧ S.getFourNeighborSites 4 = .ok [5, 7, 3, 1] ∧ S.getFourNeighborSites 5 = .error .assertionError := by
  obtain ⟨S, e, _⟩ := fresh_exists demoEnv .l1 (L := 3) (by omega) (fun _ => 0)
  have h : Reach demoEnv .l1 3 S := .new e
  exact ⟨S, h, C46_interior (L := 3) (r := 1) (c := 1) (by omega) h (by omega) (by omega) (by omega) (by omega),
    C46_last_column_raises (L := 3) (r := 1) (by omega) h (by omega)⟩

/-! ## C48 `test_run_once` -/

/-- All sites are connected to `k`. -/
def AllConnected (L : Nat) (q : List Nat) (k : Nat) : Prop := ∀ s ∈ q, SiteConn L (· ∈ q) k s

theorem siteComp_card_list {q : List Nat} {k : Nat} (hnd : q.Nodup) (hlt : ∀ s ∈ q, s < L * L) :
    (siteComp L (· ∈ q) k).card ≤ q.length ∧ ((siteComp L (· ∈ q) k).card = q.length ↔ AllConnected L q k) := by
  classical
  have hsub : siteComp L (· ∈ q) k ⊆ q.toFinset := by
    intro s hs
    simp only [siteComp, Finset.mem_filter] at hs
    exact List.mem_toFinset.2 hs.2.1
  have hc := List.toFinset_card_of_nodup hnd
  refine ⟨by rw [← hc]; exact Finset.card_le_card hsub, ?_⟩
  rw [← hc]
  constructor
  · intro h s hs
    have e := Finset.eq_of_subset_of_card_le hsub (by omega)
    have : s ∈ siteComp L (· ∈ q) k := by rw [e]; exact List.mem_toFinset.2 hs
    simp only [siteComp, Finset.mem_filter] at this
    exact this.2.2
  · intro h
    congr 1
    refine Finset.Subset.antisymm hsub ?_
    intro s hs
    have hs' := List.mem_toFinset.1 hs
    simp only [siteComp, Finset.mem_filter, Finset.mem_range]
    exact ⟨hlt s hs', hs', h s hs'⟩

/-- The loop of `test_run_once` on a list of distinct sites. -/
theorem L0Ready.testRunLoop {ids : List Nat} (hL : 3 ≤ L) (hv : v.plain = true) (hnd : ids.Nodup) (fuel : Nat) :
    ∀ {S : Perc α} {i : Nat} (ds : Nat → Draw),
    L0Ready L S ids i → Trace env v L S (ids.take i) → ¬ Wraps L (· ∈ ids.take i) → ids.length - i < fuel →
    (¬ Wraps L (· ∈ ids) ∧ ∃ S', Perc.testRunLoop env v fuel ds S = .ok S' ∧ Trace env v L S' ids) ∨
    ∃ n k, ids[n]? = some k ∧ ¬ Wraps L (· ∈ ids.take n) ∧ Wraps L (· ∈ ids.take (n + 1)) ∧
      (AllConnected L (ids.take (n + 1)) k → Perc.testRunLoop env v fuel ds S = .error .assertionError) ∧
      (¬ AllConnected L (ids.take (n + 1)) k → ∃ S', Perc.testRunLoop env v fuel ds S = .ok S' ∧ Trace env v L S' (ids.take (n + 1))) := by
  induction fuel with
  | zero => intro S i ds _ _ _ h; omega
  | succ fuel ih =>
    intro S i ds H T hnw hf
    obtain ⟨_, A, M, hA, _⟩ := T.sim
    simp only [Perc.testRunLoop]
    by_cases hi : i < ids.length
    · have hk := List.getElem?_eq_getElem hi
      have hnot : ids[i] ∉ ids.take i := not_mem_take (n := ids.length) (by rw [List.take_length]; exact hnd) hi hk
      obtain ⟨S1, p1, hfl, hsel1, R⟩ := H.place M hA.inv hv hk hnot (ds 0)
      obtain ⟨A1, hst, M1⟩ := placeOneSite_steps M hA.inv p1
      have hA1 := hA.steps hst
      obtain ⟨S2, w, hd⟩ := detectWrapping_ok M1 hA1.inv (by rw [hsel1]; simp)
      obtain ⟨haux2, _, _, A2, hst2, M2, haw2, _⟩ := detectWrapping_steps M1 hA1.inv hd
      obtain ⟨K, hocc, _⟩ := detectWrapping_keep M1 hA1.inv hd
      have T2 := T.placed p1 hfl hsel1 hd
      have et : ids.take i ++ [ids[i]] = ids.take (i + 1) := by rw [List.take_add_one, hk]; rfl
      have hw : w = true ↔ Wraps L (· ∈ ids.take (i + 1)) := by
        rw [← haw2, ← M2.aw, T2.aw_iff, et]
        exact ⟨fun h => h.2, fun h => ⟨hL, h⟩⟩
      simp only [p1, hfl, hd, bind, Except.bind, if_true]
      cases w with
      | true =>
        have hwr := hw.1 rfl
        refine Or.inr ⟨i, ids[i], hk, hnw, hwr, ?_⟩
        have hfw : firstWrap L [] (ids.take i ++ [ids[i]]) = some (ids.take i, ids[i]) :=
          firstWrap_of (pre0 := []) (post := []) (by simpa using hnw) (by rw [List.nil_append, et]; exact hwr)
        obtain ⟨_, A3, M3, hA3, I3⟩ := T2.sim
        rcases I3.firstWrap hL with ⟨_, h1⟩ | ⟨_, pre, k, h1, h2, h3, _⟩
        · rw [hfw] at h1; cases h1
        · rw [hfw] at h1
          obtain ⟨rfl, rfl⟩ := Prod.mk.inj (Option.some.inj h1)
          have hc := siteComp_card_list (L := L) (k := ids[i]) (q := ids.take (i + 1)) (hnd.sublist (List.take_sublist _ _))
            (fun s hs => H.lt s (List.mem_of_mem_take hs))
          have hpco : S2.pcOccupied = (ids.take (i + 1)).length := by rw [M3.pco, h2, ← et, List.length_append]; rfl
          have hpcs : S2.getSiteCountPc = (siteComp L (· ∈ ids.take (i + 1)) ids[i]).card := by rw [Perc.getSiteCountPc, M3.pcs, h3, et]
          rw [hpco, hpcs]
          constructor
          · intro hall
            rw [hc.2.2 hall]
            simp only [pyAssert, gt_iff_lt, lt_irrefl, decide_false, if_true, Bool.false_eq_true, if_false]
          · intro hall
            have hlt : (ids.take (i + 1)).length > (siteComp L (· ∈ ids.take (i + 1)) ids[i]).card :=
              lt_of_le_of_ne hc.1 fun h => hall (hc.2.1 h)
            refine ⟨S2, ?_, et ▸ T2⟩
            simp only [pyAssert, hlt, decide_true, if_true]
            rfl
      | false =>
        have hnw2 : ¬ Wraps L (· ∈ ids.take (i + 1)) := fun h => by have := hw.2 h; cases this
        obtain ⟨S3, hr⟩ := record_progress M2 (hA1.steps hst2)
        have R3 : L0Ready L S3 ids (i + 1) := by
          obtain ⟨p, _, rfl⟩ := record_ok hr
          exact R.congr K.siteIds haux2.maxIter K.currentIdx hocc
        simp only [hr]
        exact ih (fun j => ds (j + 1)) R3 (et ▸ T2.record hr) hnw2 (by omega)
    · have hie : i = ids.length := Nat.le_antisymm H.le (by omega)
      subst hie
      obtain ⟨S1, p1, e1, R⟩ := H.done (env := env) hv (ds 0)
      rw [List.take_length] at T hnw
      rw [p1]
      exact Or.inl ⟨hnw, S1, rfl, T.skipped p1 (by rw [e1]; simp)⟩

/-- **C48**, exact: an object with nothing placed is given any list of distinct sites.  If the list never wraps, `test_run_once` places all
of it and passes.  Otherwise it stops at the first wrapping configuration; it raises AssertionError exactly when all occupied sites are
then connected to the site placed last, and passes when some site is not. -/
theorem C48_exact (hL : 3 ≤ L) (hv : v.plain = true) (h : Start env v L S) {ids : List Int} (hne : ids ≠ [])
    (hids : ∀ i ∈ ids, 0 ≤ i ∧ i < (L : Int) * L) (hnd : ids.Nodup) {fuel : Nat} (hf : ids.length < fuel) (draws : Nat → Nat)
    (ds : Nat → Draw) :
    ∃ S1, S.setCustomIds ids false draws = .ok S1 ∧
    ((¬ Wraps L (· ∈ ids.map Int.toNat) ∧ ∃ S', S1.testRunOnce env v fuel ds = .ok S' ∧ Trace env v L S' (ids.map Int.toNat)) ∨
     ∃ n k, (ids.map Int.toNat)[n]? = some k ∧ ¬ Wraps L (· ∈ (ids.map Int.toNat).take n) ∧
      Wraps L (· ∈ (ids.map Int.toNat).take (n + 1)) ∧
      (AllConnected L ((ids.map Int.toNat).take (n + 1)) k → S1.testRunOnce env v fuel ds = .error .assertionError) ∧
      (¬ AllConnected L ((ids.map Int.toNat).take (n + 1)) k → ∃ S', S1.testRunOnce env v fuel ds = .ok S' ∧
        Trace env v L S' ((ids.map Int.toNat).take (n + 1)))) := by
  obtain ⟨S1, e1, H, T, _⟩ := h.setIds hne hids draws
  refine ⟨S1, e1, ?_⟩
  have hnd' := nodup_map_toNat hids hnd
  have hno : ¬ Wraps L (· ∈ (ids.map Int.toNat).take 0) := by
    rintro ⟨s, w, hw, hwalk⟩
    cases hwalk <;> simp_all
  have htd : ∀ {S' : Perc α} {q : List Nat}, Trace env v L S' q → Trace env v L { S' with firstRun := false } q := fun T =>
    T.data false _ _ _ _ _
  rcases H.testRunLoop (fuel := fuel) hL hv hnd' ds T hno (by simpa using hf) with ⟨h1, S', h2, h3⟩ | ⟨n, k, h1, h2, h3, h4, h5⟩
  · exact Or.inl ⟨h1, _, by rw [Perc.testRunOnce, h2]; rfl, htd h3⟩
  · refine Or.inr ⟨n, k, h1, h2, h3, fun hc => by rw [Perc.testRunOnce, h4 hc]; rfl, fun hc => ?_⟩
    obtain ⟨S', h6, h7⟩ := h5 hc
    exact ⟨_, by rw [Perc.testRunOnce, h6]; rfl, htd h7⟩

theorem row_prefix_connected {n : Nat} (hn : n < L) : AllConnected L (List.range (n + 1)) n := by
  have key : ∀ j, j ≤ n → SiteConn L (· ∈ List.range (n + 1)) n (n - j) := by
    intro j
    induction j with
    | zero => intro _; exact .refl _
    | succ j ih =>
      intro hj
      refine (ih (by omega)).tail ⟨List.mem_range.2 (by omega), List.mem_range.2 (by omega), .left, ?_⟩
      have e : n - j = 0 * L + (n - j) := by omega
      rw [e, nbr_left_rc (by omega), pred_mod_cases (by omega), if_neg (by omega)]
      omega
  intro s hs
  have := List.mem_range.1 hs
  have h := key (n - s) (by omega)
  rwa [show n - (n - s) = s by omega] at h

/-- **C48**: for every `L ≥ 3`, in every environment, `test_run_once` raises AssertionError when the sites of row 0 are placed first. -/
theorem C48_row_fails (hL : 3 ≤ L) (hv : v.plain = true) (h : Start env v L S) {fuel : Nat} (hf : L < fuel) (draws : Nat → Nat)
    (ds : Nat → Draw) : ∃ S1, S.setCustomIds ((List.range L).map Int.ofNat) false draws = .ok S1 ∧
      S1.testRunOnce env v fuel ds = .error .assertionError := by
  have em : ((List.range L).map Int.ofNat).map Int.toNat = List.range L := by rw [List.map_map]; exact List.map_id _
  have hLL : L ≤ L * L := Nat.le_mul_of_pos_left L (by omega)
  obtain ⟨S1, e1, h1⟩ := C48_exact hL hv h (ids := (List.range L).map Int.ofNat) (by simp; omega)
    (by
      intro i hi
      obtain ⟨j, hj, rfl⟩ := List.mem_map.1 hi
      have hj' : j < L * L := by have := List.mem_range.1 hj; omega
      refine ⟨Int.natCast_nonneg j, ?_⟩
      have : ((j : Nat) : Int) < ((L * L : Nat) : Int) := Int.ofNat_lt.2 hj'
      rwa [Nat.cast_mul] at this)
    (List.nodup_range.map fun a b h => Int.ofNat.inj h) (fuel := fuel) (by simpa using hf) draws ds
  refine ⟨S1, e1, ?_⟩
  rw [em] at h1
  rcases h1 with ⟨h1, _⟩ | ⟨n, k, h1, _, _, h2, _⟩
  · refine absurd (row_wraps (L := L) (r := 0) (by omega) ?_).wraps h1
    intro c hc
    simpa using hc
  · have hn : n < L := by simpa using (List.getElem?_eq_some_iff.1 h1).1
    have hkn : k = n := by rw [List.getElem?_range hn] at h1; exact (Option.some.inj h1).symm
    rw [hkn, List.take_range, Nat.min_eq_left (by omega)] at h2
    exact h2 (row_prefix_connected hn)

example : ∃ S, Start demoEnv .l0 3 S := (fresh_exists demoEnv .l0 (by omega) (fun _ => 0)).elim fun _ h => ⟨_, .new h.1⟩

/-- `test_run_once` on a new object with the given list; `some b` when it passes with `after_wrapping = b`. -/
def demoTestRun (ids : List Int) : Py Bool := do
  let S ← Perc.new demoEnv 4 (fun _ => 0)
  let S ← S.setCustomIds ids false (fun _ => 0)
  let S ← S.testRunOnce demoEnv .l0 9 (fun _ => ⟨0, 0⟩)
  return S.afterWrapping

/-- The outcomes of `C48_exact` on the `4 × 4` lattice: row 0 alone fails; with the isolated site `(2, 1)` placed first it passes; two sites never
wrap. -/
example : demoTestRun [0, 1, 2, 3] = .error .assertionError ∧ demoTestRun [9, 0, 1, 2, 3] = .ok true ∧ demoTestRun [9, 0] = .ok false := by
  decide +kernel

/-! ## C50 `merge_clusters` (first version) -/

theorem mergeV1Root_spec {P : PV} {N : Nat} (gs : List Int) (hg : ∀ g ∈ gs, 0 ≤ g ∧ g < N) : ∀ (root : Int) (ref : Nat),
    ∃ r, Perc.mergeV1Root (mkPool N P) gs root ref = .ok r ∧ ((r = root ∧ ∀ g ∈ gs, (P.cb g).length < ref) ∨
      (r ∈ gs ∧ ref ≤ (P.cb r).length ∧ ∀ g ∈ gs, (P.cb g).length ≤ (P.cb r).length)) := by
  induction gs with
  | nil => intro root ref; exact ⟨root, rfl, Or.inl ⟨rfl, by simp⟩⟩
  | cons g gs ih =>
    intro root ref
    have hg0 := hg g (by simp)
    simp only [Perc.mergeV1Root, bondCount_mk hg0.1 hg0.2, bind, Except.bind]
    split
    · rename_i hge
      obtain ⟨r, e, h⟩ := ih (fun g h => hg g (by simp [h])) g (P.cb g).length
      refine ⟨r, e, Or.inr ?_⟩
      rcases h with ⟨rfl, h⟩ | ⟨h1, h2, h3⟩
      · exact ⟨by simp, hge, by intro x hx; rcases List.mem_cons.1 hx with rfl | hx; exact le_rfl; exact (h x hx).le⟩
      · exact ⟨by simp [h1], by omega, by intro x hx; rcases List.mem_cons.1 hx with rfl | hx; exact h2; exact h3 x hx⟩
    · rename_i hlt
      obtain ⟨r, e, h⟩ := ih (fun g h => hg g (by simp [h])) root ref
      refine ⟨r, e, ?_⟩
      rcases h with ⟨rfl, h⟩ | ⟨h1, h2, h3⟩
      · exact Or.inl ⟨rfl, by intro x hx; rcases List.mem_cons.1 hx with rfl | hx; omega; exact h x hx⟩
      · exact Or.inr ⟨by simp [h1], h2, by intro x hx; rcases List.mem_cons.1 hx with rfl | hx; omega; exact h3 x hx⟩

theorem mergeV1Loop_spec {r : Int} {N : Nat} (hr : 0 ≤ r ∧ r < N) (gs : List Int) (hg : ∀ g ∈ gs, 0 ≤ g ∧ g < N) : ∀ (P : PV) (V : LV),
    (∀ g ∈ gs, g ≠ r → (∀ s ∈ P.cs g, s < L * L) ∧ ∀ b ∈ P.cb g, b < 2 * (L * L)) →
    ∃ P' V', Perc.mergeV1Loop r gs (mkPool N P, mkLat L V) = .ok (mkPool N P', mkLat L V') ∧ P'.cg = P.cg ∧
      (∀ g ≠ r, P'.cb g = P.cb g ∧ P'.cs g = P.cs g) ∧
      P'.cb r = P.cb r ++ (gs.filter (· ≠ r)).flatMap P.cb ∧ P'.cs r = P.cs r ++ (gs.filter (· ≠ r)).flatMap P.cs ∧
      (∀ b, (∃ g ∈ gs, g ≠ r ∧ b ∈ P.cb g) → V'.bg b = P.cg r) ∧ (∀ b, (¬ ∃ g ∈ gs, g ≠ r ∧ b ∈ P.cb g) → V'.bg b = V.bg b) := by
  induction gs with
  | nil => intro P V _; exact ⟨P, V, rfl, rfl, by simp, by simp, by simp, by simp, by simp⟩
  | cons g gs ih =>
    intro P V hin
    by_cases hgr : g = r
    · subst hgr
      obtain ⟨P', V', e, h1, h2, h3, h4, h5, h6⟩ := ih (fun g h => hg g (by simp [h])) P V (fun g h => hin g (by simp [h]))
      refine ⟨P', V', by simp only [Perc.mergeV1Loop, if_true]; exact e, h1, h2, by simpa using h3, by simpa using h4, ?_, ?_⟩
      · rintro b ⟨x, hx, hxr, hb⟩
        rcases List.mem_cons.1 hx with rfl | hx
        · exact absurd rfl hxr
        · exact h5 b ⟨x, hx, hxr, hb⟩
      · intro b hb
        exact h6 b fun ⟨x, hx, hxr, hb'⟩ => hb ⟨x, by simp [hx], hxr, hb'⟩
    · have hg0 := hg g (by simp)
      obtain ⟨hs, hb⟩ := hin g (by simp) hgr
      have em := mergeClusterWith_mk (V := V) hr.1 hr.2 hg0.1 hg0.2 hs hb
      obtain ⟨P', V', e, h1, h2, h3, h4, h5, h6⟩ := ih (fun g h => hg g (by simp [h]))
        { P with cs := updI P.cs r (P.cs r ++ P.cs g), cb := updI P.cb r (P.cb r ++ P.cb g) }
        { V with bg := fun j => if j ∈ P.cb g then P.cg r else V.bg j, sg := fun j => if j ∈ P.cs g then P.cg r else V.sg j }
        (by
          intro x hx hxr
          simp only [updI, if_neg hxr]
          exact hin x (by simp [hx]) hxr)
      have hf : ∀ {β : Type} (f : Int → List β) (w : List β),
          (gs.filter (· ≠ r)).flatMap (updI f r w) = (gs.filter (· ≠ r)).flatMap f := by
        intro β f w
        apply List.flatMap_congr
        intro x hx
        have : x ≠ r := by simpa using (List.mem_filter.1 hx).2
        simp [updI, this]
      refine ⟨P', V', ?_, h1, ?_, ?_, ?_, ?_, ?_⟩
      · simp only [Perc.mergeV1Loop, if_neg hgr, em, bind, Except.bind]
        exact e
      · intro x hx
        obtain ⟨a, b⟩ := h2 x hx
        rw [a, b]
        simp [updI, hx]
      · rw [h3, hf]
        simp [updI, hgr]
      · rw [h4, hf]
        simp [updI, hgr]
      · rintro b ⟨x, hx, hxr, hbx⟩
        by_cases hb' : ∃ y ∈ gs, y ≠ r ∧ b ∈ updI P.cb r (P.cb r ++ P.cb g) y
        · exact h5 b hb'
        · rw [h6 b hb']
          rcases List.mem_cons.1 hx with hxg | hx
          · subst hxg
            exact if_pos hbx
          · exact absurd ⟨x, hx, hxr, by simp only [updI, if_neg hxr]; exact hbx⟩ hb'
      · intro b hb
        rw [h6 b]
        · simp only
          rw [if_neg fun hbg => hb ⟨g, by simp, hgr, hbg⟩]
        · rintro ⟨y, hy, hyr, hby⟩
          simp only [updI, if_neg hyr] at hby
          exact hb ⟨y, by simp [hy], hyr, hby⟩

/-- What the first version of `merge_clusters` does, in views. -/
theorem mergeV1_spec {A : Abs α} (M : Sim env L S A) (hA : AReach env L A) {bonds : List Nat} (hb : ∀ b ∈ bonds, b < 2 * (L * L))
    (hne : bonds ≠ []) : ∃ (S' : Perc α) (r : Int) (P' : PV) (V' : LV) (gs : List Int), S.mergeClustersV1 env bonds = .ok (S', r) ∧ S'.pool = mkPool (2 * (L * L)) P' ∧ S'.lat = mkLat L V' ∧
      gs.Nodup ∧ (∀ g, g ∈ gs ↔ ∃ b ∈ bonds, A.V.bg b = g) ∧ r ∈ gs ∧ (∀ g ∈ gs, (A.P.cb g).length ≤ (A.P.cb r).length) ∧
      (∀ g ≠ r, P'.cb g = A.P.cb g ∧ P'.cs g = A.P.cs g) ∧ P'.cb r = A.P.cb r ++ (gs.filter (· ≠ r)).flatMap A.P.cb ∧
      (∀ b, (∃ g ∈ gs, g ≠ r ∧ b ∈ A.P.cb g) → V'.bg b = r) ∧ (∀ b, (¬ ∃ g ∈ gs, g ≠ r ∧ b ∈ A.P.cb g) → V'.bg b = A.V.bg b) := by
  have C := hA.inv.core
  have e1 : S.getBondGids env bonds = .ok (env.set.iter (bonds.map A.V.bg)) := by
    simp only [Perc.getBondGids]
    rw [mapM_ok S.lat.getBondGid A.V.bg _ fun b h => M.bondGid (hb b h)]
    rfl
  have hm : ∀ g, g ∈ env.set.iter (bonds.map A.V.bg) ↔ ∃ b ∈ bonds, A.V.bg b = g := by
    intro g; rw [env.set.iter_mem, List.mem_map]
  have hnd := env.set.iter_nodup (bonds.map A.V.bg)
  generalize env.set.iter (bonds.map A.V.bg) = gs at *
  have hg : ∀ g ∈ gs, 0 ≤ g ∧ g < (2 * (L * L) : Nat) := by
    intro g h
    obtain ⟨b, hbm, rfl⟩ := (hm g).1 h
    exact C.bgr b (hb b hbm)
  obtain ⟨r, e2, hr⟩ := mergeV1Root_spec (P := A.P) gs hg 0 0
  have hr' : r ∈ gs ∧ ∀ g ∈ gs, (A.P.cb g).length ≤ (A.P.cb r).length := by
    rcases hr with ⟨_, h⟩ | ⟨h1, _, h2⟩
    · obtain ⟨b, hbm⟩ := List.exists_mem_of_ne_nil _ hne
      exact absurd (h _ ((hm _).2 ⟨b, hbm, rfl⟩)) (by omega)
    · exact ⟨h1, h2⟩
  obtain ⟨P', V', e3, h1, h2, h3, h4, h5, h6⟩ := mergeV1Loop_spec (hg r hr'.1) gs hg A.P A.V (by
    intro g h _
    obtain ⟨h0, h1⟩ := hg g h
    exact ⟨fun s hs => ((C.mems g h0 h1 s).1 hs).1, fun b hb => ((C.memb g h0 h1 b).1 hb).1⟩)
  have hcg : A.P.cg r = r := by
    obtain ⟨h0, h1⟩ := hg r hr'.1
    refine C.cgok r h0 h1 ?_
    obtain ⟨b, hbm, e⟩ := (hm r).1 hr'.1
    have := (C.memb r h0 h1 b).2 ⟨hb b hbm, e⟩
    intro hnil
    rw [hnil] at this
    cases this
  rw [hcg] at h5
  refine ⟨{ S with pool := mkPool (2 * (L * L)) P', lat := mkLat L V' }, r, P', V', gs, ?_, rfl, rfl, hnd, hm, hr'.1, hr'.2, h2, h3, h5, h6⟩
  simp only [Perc.mergeClustersV1, e1, M.pool, M.lat, e2, e3, bind, Except.bind]
  rfl

/-- **C50**: in every reachable state, for every non-empty list of bonds, the first version of `merge_clusters` chooses a largest cluster `r`
among those of the bonds and gives all their bonds the gid `r`; but the bonds of every other cluster `g` are afterwards listed both in cluster
`r` and in cluster `g`. -/
theorem C50_listed_twice (h : Reach env v L S) {bonds : List Nat} (hb : ∀ b ∈ bonds, b < 2 * (L * L)) (hne : bonds ≠ []) :
    ∃ S' r, S.mergeClustersV1 env bonds = .ok (S', r) ∧ (∃ b ∈ bonds, S.lat.getBondGid b = .ok r) ∧
      (∀ b' < 2 * (L * L), ∀ g, S.lat.getBondGid b' = .ok g → (∃ b ∈ bonds, S.lat.getBondGid b = .ok g) →
        S'.lat.getBondGid b' = .ok r ∧ (∃ br, S'.pool.getBonds r = .ok br ∧ b' ∈ br) ∧ ∃ bg, S'.pool.getBonds g = .ok bg ∧ b' ∈ bg) ∧
      (∀ b' < 2 * (L * L), (¬ ∃ b ∈ bonds, S.lat.getBondGid b = S.lat.getBondGid b') → S'.lat.getBondGid b' = S.lat.getBondGid b') := by
  obtain ⟨_, A, M, hA⟩ := h.sim
  have C := hA.inv.core
  obtain ⟨S', r, P', V', gs, e, hP, hV, hnd, hm, hr, _, h2, h3, h5, h6⟩ := mergeV1_spec M hA hb hne
  have hrange : ∀ g ∈ gs, 0 ≤ g ∧ g < (2 * (L * L) : Nat) := by
    intro g hg
    obtain ⟨b, hbm, rfl⟩ := (hm g).1 hg
    exact C.bgr b (hb b hbm)
  refine ⟨S', r, e, ?_, ?_, ?_⟩
  · obtain ⟨b, hbm, e⟩ := (hm r).1 hr
    exact ⟨b, hbm, by rw [M.bondGid (hb b hbm), e]⟩
  · rintro b' hb' g hg ⟨b, hbm, e'⟩
    rw [M.bondGid hb'] at hg
    rw [M.bondGid (hb b hbm)] at e'
    have hg := Except.ok.inj hg
    have e' := Except.ok.inj e'
    have hgm : g ∈ gs := (hm g).2 ⟨b, hbm, e'⟩
    obtain ⟨g0, g1⟩ := hrange g hgm
    obtain ⟨r0, r1⟩ := hrange r hr
    have hmem : b' ∈ A.P.cb g := (C.memb g g0 g1 b').2 ⟨hb', hg⟩
    rw [hV, hP, getBondGid_mk hb', getBonds_mk r0 r1, getBonds_mk g0 g1]
    by_cases hgr : g = r
    · subst hgr
      have hmem' : b' ∈ P'.cb g := by rw [h3]; simp [hmem]
      refine ⟨?_, ⟨_, rfl, hmem'⟩, ⟨_, rfl, hmem'⟩⟩
      rw [h6 b', hg]
      rintro ⟨x, hx, hxr, hbx⟩
      obtain ⟨x0, x1⟩ := hrange x hx
      exact hxr (((C.memb x x0 x1 b').1 hbx).2.symm.trans hg)
    · refine ⟨by rw [h5 b' ⟨g, hgm, hgr, hmem⟩], ⟨_, rfl, ?_⟩, ⟨_, rfl, by rw [(h2 g hgr).1]; exact hmem⟩⟩
      rw [h3, List.mem_append, List.mem_flatMap]
      exact Or.inr ⟨g, List.mem_filter.2 ⟨hgm, by simpa using hgr⟩, hmem⟩
  · intro b' hb' hno
    rw [hV, getBondGid_mk hb', M.bondGid hb', h6 b']
    rintro ⟨x, hx, _, hbx⟩
    obtain ⟨x0, x1⟩ := hrange x hx
    obtain ⟨b, hbm, e⟩ := (hm x).1 hx
    exact hno ⟨b, hbm, by rw [M.bondGid (hb b hbm), M.bondGid hb', e, ((C.memb x x0 x1 b').1 hbx).2]⟩

/-- **C50**: hence, when the bonds belong to at least two clusters, the bond counts of all clusters sum to more than `2 L²`. -/
theorem C50_sum_too_large (h : Reach env v L S) {bonds : List Nat} (hb : ∀ b ∈ bonds, b < 2 * (L * L)) {b1 b2 : Nat} (hb1 : b1 ∈ bonds)
    (hb2 : b2 ∈ bonds) (hdiff : S.lat.getBondGid b1 ≠ S.lat.getBondGid b2) :
    ∃ S' r, S.mergeClustersV1 env bonds = .ok (S', r) ∧ 2 * (L * L) < (S'.pool.clusters.map fun c => c.bondIds.length).sum := by
  obtain ⟨_, A, M, hA⟩ := h.sim
  have C := hA.inv.core
  obtain ⟨S', r, P', V', gs, e, hP, hV, hnd, hm, hr, _, h2, h3, -⟩ := mergeV1_spec M hA hb (List.ne_nil_of_mem hb1)
  refine ⟨S', r, e, ?_⟩
  have hrg : r ∈ gids L := by
    obtain ⟨b, hbm, rfl⟩ := (hm r).1 hr
    exact mem_gids.2 (C.bgr b (hb b hbm))
  have hsum := C.sum_len
  rw [hP, sum_clusters_map]
  rw [← Finset.add_sum_erase _ _ hrg] at hsum ⊢
  have hrest : ∑ x ∈ (gids L).erase r, (mkCluster P' x).bondIds.length = ∑ x ∈ (gids L).erase r, A.P.len x := by
    refine Finset.sum_congr rfl fun x hx => ?_
    show (P'.cb x).length = (A.P.cb x).length
    rw [(h2 x (Finset.ne_of_mem_erase hx)).1]
  rw [hrest, ← hsum]
  refine Nat.add_lt_add_right ?_ _
  show (A.P.cb r).length < (P'.cb r).length
  rw [h3, List.length_append]
  obtain ⟨g, hg, hgr⟩ : ∃ g ∈ gs, g ≠ r := by
    rw [M.bondGid (hb _ hb1), M.bondGid (hb _ hb2)] at hdiff
    by_cases h1 : A.V.bg b1 = r
    · exact ⟨_, (hm _).2 ⟨b2, hb2, rfl⟩, fun h => hdiff (by rw [h1, h])⟩
    · exact ⟨_, (hm _).2 ⟨b1, hb1, rfl⟩, h1⟩
  obtain ⟨b, hbm, e⟩ := (hm g).1 hg
  have hg01 := e ▸ C.bgr b (hb b hbm)
  have hmem : b ∈ (gs.filter (· ≠ r)).flatMap A.P.cb :=
    List.mem_flatMap.2 ⟨g, List.mem_filter.2 ⟨hg, by simpa using hgr⟩, (C.memb g hg01.1 hg01.2 b).2 ⟨hb b hbm, e⟩⟩
  have := List.length_pos_of_mem hmem
  omega

/-- **C50**: nothing is broken when all bonds belong to one cluster. -/
theorem C50_one_cluster (h : Reach env v L S) {bonds : List Nat} (hb : ∀ b ∈ bonds, b < 2 * (L * L)) (hne : bonds ≠ [])
    {g : Int} (hg : ∀ b ∈ bonds, S.lat.getBondGid b = .ok g) : ∃ S', S.mergeClustersV1 env bonds = .ok (S', g) ∧ S' = S := by
  obtain ⟨_, A, M, hA⟩ := h.sim
  have e1 : S.getBondGids env bonds = .ok (env.set.iter (bonds.map A.V.bg)) := by
    simp only [Perc.getBondGids]
    rw [mapM_ok S.lat.getBondGid A.V.bg _ fun b h => M.bondGid (hb b h)]
    rfl
  have hm : ∀ x, x ∈ env.set.iter (bonds.map A.V.bg) ↔ x = g := by
    intro x
    rw [env.set.iter_mem, List.mem_map]
    have hbg : ∀ b ∈ bonds, A.V.bg b = g := fun b h => by
      have := hg b h
      rw [M.bondGid (hb b h)] at this
      exact Except.ok.inj this
    constructor
    · rintro ⟨b, h, rfl⟩; exact hbg b h
    · rintro rfl
      obtain ⟨b, hbm⟩ := List.exists_mem_of_ne_nil _ hne
      exact ⟨b, hbm, hbg b hbm⟩
  have hnd := env.set.iter_nodup (bonds.map A.V.bg)
  have hl : env.set.iter (bonds.map A.V.bg) = [g] := by
    generalize env.set.iter (bonds.map A.V.bg) = l at hm hnd
    match l, hm, hnd with
    | [], hm, _ => exact absurd ((hm g).2 rfl) (by simp)
    | [a], hm, _ => rw [(hm a).1 (by simp)]
    | a :: b :: t, hm, hnd =>
      have := (hm a).1 (by simp)
      have := (hm b).1 (by simp)
      subst_vars
      simp at hnd
  have hgr : 0 ≤ g ∧ g < (2 * (L * L) : Nat) := by
    obtain ⟨b, hbm⟩ := List.exists_mem_of_ne_nil _ hne
    have := hg b hbm
    rw [M.bondGid (hb b hbm)] at this
    rw [← Except.ok.inj this]
    exact hA.inv.core.bgr b (hb b hbm)
  refine ⟨S, ?_, rfl⟩
  simp only [Perc.mergeClustersV1, e1, hl, Perc.mergeV1Root, M.pool, bondCount_mk hgr.1 hgr.2, Perc.mergeV1Loop, bind, Except.bind,
    ge_iff_le, Nat.zero_le, if_true, pure, Except.pure]
  rw [← M.pool]

/-- A new `2 × 2` lattice: the bonds of site 0 belong to four clusters, and after the call the counts sum to 11 instead of 8. -/
example : ∃ S, Reach demoEnv .l0 2 S ∧ S.lat.getBondGid 0 ≠ S.lat.getBondGid 4 ∧
    isOk ((S.mergeClustersV1 demoEnv [0, 4, 1, 6]).map fun r => (r.1.pool.clusters.map fun c => c.bondIds.length).sum) 11 = true := by
  obtain ⟨S, h, hp⟩ := checkOps_reach (env := demoEnv) (v := .l0) (L := 2) (ops := [])
    (p := fun S => !(decide (S.lat.getBondGid 0 = S.lat.getBondGid 4)) &&
      isOk ((S.mergeClustersV1 demoEnv [0, 4, 1, 6]).map fun r => (r.1.pool.clusters.map fun c => c.bondIds.length).sum) 11) (by decide +kernel)
  simp only [Bool.and_eq_true, Bool.not_eq_true', decide_eq_false_iff_not] at hp
  exact ⟨S, h, hp⟩

/-! ## Examples for C14 and C15 -/

theorem not_bondConn_empty {occ : Nat → Prop} (h0 : ∀ s, ¬ occ s) {b b' : Nat} (hne : b ≠ b') : ¬ BondConn L occ b b' := by
  intro h
  rcases Relation.ReflTransGen.cases_head h with h | ⟨_, ⟨_, _, s, hs, _⟩, _⟩
  · exact hne h
  · exact h0 s hs

/-- The hypotheses of C14 and C15 over the reals: on every lattice with `L ≥ 2` the first placement on a new object succeeds and lowers the
entropy strictly. -/
example (so : SetOrder) (hL : 2 ≤ L) : ∃ S S' : Perc ℝ, ∃ d : Draw, Reach (realEnv so) .l0 L S ∧ S.placeOneSite (realEnv so) .l0 d = .ok (S', true) ∧
    S'.selectionFlag = some .success ∧ S'.entropy < S.entropy := by
  obtain ⟨S, e, F⟩ := fresh_exists (realEnv so) .l0 (L := L) (by omega) (fun _ => 0)
  have hR : Reach (realEnv so) .l0 L S := .new e
  obtain ⟨hp, H⟩ := F.perm rfl
  obtain ⟨_, A, M, hA⟩ := hR.sim
  have hl : 0 < S.siteIds.length := by
    rw [hp.length_eq, List.length_range]
    exact Nat.mul_pos (by omega) (by omega)
  obtain ⟨S', p, hf, hsel, _⟩ := H.place M hA.inv (v := .l0) rfl (List.getElem?_eq_getElem hl) (by simp) ⟨0, 0⟩
  refine ⟨S, S', ⟨0, 0⟩, hR, p, hf, ?_⟩
  obtain ⟨k, hk, h1, _⟩ := C15_strict hR p hf
  refine h1 ⟨.right, .down, not_bondConn_empty F.live.2.2.2 ?_⟩
  rw [hsel] at hk
  have hlt : k < L * L := by
    rw [← Option.some.inj hk]
    exact H.lt _ (List.getElem_mem hl)
  intro h
  have := bondAt_inj hL hlt h
  cases this

end SqPerc
