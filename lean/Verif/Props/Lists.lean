import Verif.Proof.Custom
import Verif.Props.Lattice
import Verif.Props.Wrapping
/-
Properties C30, C31, C32: custom site lists, shuffling and the reverse index.
-/
namespace SqPerc

variable {α : Type} {L : Nat} {env : Env α} {v : Variant} {S S' S1 S2 : Perc α}

/-! ### C30 -/

/-- C30: an empty list raises (`max([])`), with or without shuffling. -/
theorem C30_empty (b : Bool) (draws : Nat → Nat) : S.setCustomIds [] b draws = .error .valueError := rfl

/-- C30: a non-empty list never raises on a reachable object; if some id is out of range the object is unchanged, otherwise the list
(shuffled if so requested) becomes the site order and its length the number of placements. -/
theorem C30_validates (h : Reach env v L S) {ids : List Int} (hne : ids ≠ []) (b : Bool) (draws : Nat → Nat) :
    ((∃ i ∈ ids, i < 0 ∨ (L : Int) * L ≤ i) ∧ S.setCustomIds ids b draws = .ok S) ∨
    ((∀ i ∈ ids, 0 ≤ i ∧ i < (L : Int) * L) ∧ ∃ S', S.setCustomIds ids b draws = .ok S' ∧ S'.modeCustom = true ∧
      (S'.siteIds.map Int.ofNat).Perm ids ∧ (b = false → S'.siteIds.map Int.ofNat = ids) ∧ S'.maxIter = ids.length ∧
      S'.doShuffle = b ∧ ∀ s, S'.Occ s ↔ S.Occ s) := by
  obtain ⟨_, A, M, hA⟩ := h.sim
  by_cases hr : ∀ i ∈ ids, 0 ≤ i ∧ i < (L : Int) * L
  · have back : (ids.map Int.toNat).map Int.ofNat = ids := by
      rw [List.map_map]
      conv => rhs; rw [← List.map_id ids]
      apply List.map_congr_left
      intro i hi
      exact Int.toNat_of_nonneg (hr i hi).1
    refine Or.inr ⟨hr, ?_⟩
    cases b with
    | false =>
      refine ⟨_, setIds_off M hne hr draws, rfl, ?_, fun _ => back, rfl, rfl, fun _ => Iff.rfl⟩
      show ((ids.map Int.toNat).map Int.ofNat).Perm ids
      rw [back]
    | true =>
      obtain ⟨rev, e, _⟩ := setIds_on h hne hr draws
      refine ⟨_, e, rfl, ?_, fun h => (by cases h), rfl, rfl, fun _ => Iff.rfl⟩
      have := (pyShuffle_perm draws (ids.map Int.toNat)).map Int.ofNat
      rw [back] at this
      exact this
  · refine Or.inl ⟨?_, ?_⟩
    · push Not at hr
      obtain ⟨i, hi, h⟩ := hr
      exact ⟨i, hi, by by_cases h0 : i < 0; exacts [Or.inl h0, Or.inr (h (by omega))]⟩
    · simp only [Perc.setCustomIds]
      rw [if_neg (by simpa using hne), if_pos]
      rw [show S.lat.length = L by rw [M.lat]; rfl]
      cases hb : Perc.badIds L ids with
      | true => rfl
      | false => exact absurd ((badIds_iff hne).1 hb) hr

/-- C30: on an object on which no custom list was set, a non-empty list leaves the object unchanged iff some id is out of range. -/
theorem C30_unchanged_iff (h : Reach env v L S) (hm : S.modeCustom = false) {ids : List Int} (hne : ids ≠ []) (b : Bool) (draws : Nat → Nat) :
    S.setCustomIds ids b draws = .ok S ↔ ∃ i ∈ ids, i < 0 ∨ (L : Int) * L ≤ i := by
  rcases C30_validates h hne b draws with ⟨h1, h2⟩ | ⟨h1, S', h2, h3, _⟩
  · exact ⟨fun _ => h1, fun _ => h2⟩
  · constructor
    · intro e
      rw [h2] at e
      rw [Except.ok.inj e, hm] at h3
      cases h3
    · rintro ⟨i, hi, h⟩
      have := h1 i hi
      omega

theorem mem_map_toNat {ids : List Int} (hids : ∀ i ∈ ids, 0 ≤ i ∧ i < (L : Int) * L) (s : Nat) : s ∈ ids.map Int.toNat ↔ (s : Int) ∈ ids := by
  rw [List.mem_map]
  constructor
  · rintro ⟨i, hi, rfl⟩
    rw [Int.toNat_of_nonneg (hids i hi).1]; exact hi
  · intro h; exact ⟨s, h, Int.toNat_natCast s⟩

theorem nodup_map_toNat {ids : List Int} (hids : ∀ i ∈ ids, 0 ≤ i ∧ i < (L : Int) * L) (h : ids.Nodup) : (ids.map Int.toNat).Nodup := by
  refine List.Nodup.map_on ?_ h
  intro i hi j hj e
  have h1 := Int.toNat_of_nonneg (hids i hi).1
  have h2 := Int.toNat_of_nonneg (hids j hj).1
  omega

theorem take_hids {ids : List Int} (hids : ∀ i ∈ ids, 0 ≤ i ∧ i < (L : Int) * L) (n : Nat) : ∀ i ∈ ids.take n, 0 ≤ i ∧ i < (L : Int) * L :=
  fun i hi => hids i (List.mem_of_mem_take hi)

/-- C30: on a plain object with nothing placed, the calls of `place_one_site` that follow `set_custome_site_id_list(ids, False)` occupy
exactly the given ids in the given order, as long as no id is repeated; after the last id they return False. -/
theorem C30_order (hv : v.plain = true) (h : Start env v L S) {ids : List Int} (hne : ids ≠ []) (hids : ∀ i ∈ ids, 0 ≤ i ∧ i < (L : Int) * L)
    (draws : Nat → Nat) (n : Nat) (hnd : (ids.take n).Nodup) (ds : Nat → Draw) :
    ∃ S1 S', S.setCustomIds ids false draws = .ok S1 ∧
      placeN env v n ds S1 = .ok (S', (List.range n).map fun j : Nat => decide (j < ids.length)) ∧
      (∀ s : Nat, S'.Occ s ↔ (s : Int) ∈ ids.take n) ∧
      (0 < n → n ≤ ids.length → S'.selected.map Int.ofNat = ids[n - 1]?) := by
  obtain ⟨S1, e1, R, T, _⟩ := h.setIds hne hids draws
  obtain ⟨S', q1, R', _, hsel⟩ := R.placeN hv n ds T.reachable (by
    rw [Nat.zero_add, ← List.map_take]; exact nodup_map_toNat (take_hids hids n) hnd)
  refine ⟨S1, S', e1, ?_, ?_, ?_⟩
  · rw [q1]; simp
  · intro s
    rw [R'.occ, ← mem_map_toNat (take_hids hids n), List.map_take]
    rw [Nat.zero_add]
    rcases Nat.le_total n (ids.map Int.toNat).length with h | h
    · rw [Nat.min_eq_left h]
    · rw [Nat.min_eq_right h, List.take_length, List.take_of_length_le h]
  · intro h0 hn
    rw [hsel, if_neg (show ¬ (n = 0 ∨ (ids.map Int.toNat).length ≤ 0) by rw [List.length_map]; omega), Nat.zero_add, Nat.min_eq_left (by simpa using hn), List.getElem?_map, Option.map_map]
    have hlt : n - 1 < ids.length := by omega
    rw [List.getElem?_eq_getElem hlt, Option.map_some]
    exact congrArg some (Int.toNat_of_nonneg (hids _ (List.getElem_mem hlt)).1)

/-- C30: at the first repeated id `place_one_site` raises AssertionError. -/
theorem C30_repeat (hv : v.plain = true) (h : Start env v L S) {ids : List Int} (hids : ∀ i ∈ ids, 0 ≤ i ∧ i < (L : Int) * L)
    (draws : Nat → Nat) (n : Nat) (hnd : (ids.take n).Nodup) {i : Int} (hi : ids[n]? = some i) (hrep : i ∈ ids.take n) (ds : Nat → Draw) :
    ∃ S1 S', S.setCustomIds ids false draws = .ok S1 ∧ placeN env v n ds S1 = .ok (S', List.replicate n true) ∧
      ∀ d, S'.placeOneSite env v d = .error .assertionError := by
  have hn := (List.getElem?_eq_some_iff.1 hi).1
  have hne : ids ≠ [] := by rintro rfl; simp at hn
  obtain ⟨S1, e1, R, T, _⟩ := h.setIds hne hids draws
  obtain ⟨S', q1, R', ⟨A, M, hA⟩, _⟩ := R.placeN hv n ds T.reachable (by
    rw [Nat.zero_add, ← List.map_take]; exact nodup_map_toNat (take_hids hids n) hnd)
  refine ⟨S1, S', e1, ?_, fun d => ?_⟩
  · rw [q1]; congr 2
    rw [List.eq_replicate_iff]
    refine ⟨by simp, ?_⟩
    intro b hb
    obtain ⟨j, hj, rfl⟩ := List.mem_map.1 hb
    have := List.mem_range.1 hj
    simp; omega
  · rw [Nat.zero_add, List.length_map, Nat.min_eq_left (by omega)] at R'
    refine R'.repeat M hA.inv hv (k := i.toNat) (by rw [List.getElem?_map, hi]; rfl) ?_ d
    rw [← List.map_take, List.mem_map]
    exact ⟨i, hrep, rfl⟩

/-- C30: `run_once` on such an object places exactly the given ids in the given order. -/
theorem C30_run_once (hv : v.plain = true) (h : Start env v L S) {ids : List Int} (hne : ids ≠ []) (hids : ∀ i ∈ ids, 0 ≤ i ∧ i < (L : Int) * L)
    (hnd : ids.Nodup) (draws : Nat → Nat) {fuel : Nat} (hf : ids.length < fuel) (ds : Nat → Draw) :
    ∃ S1 S' seq, S.setCustomIds ids false draws = .ok S1 ∧ S1.runOnce env v fuel ds = .ok S' ∧ Trace env v L S' seq ∧ seq.map Int.ofNat = ids := by
  obtain ⟨S1, e1, R, T, _⟩ := h.setIds hne hids draws
  obtain ⟨S2, e2, T2, R2, _⟩ := R.runLoop hv (nodup_map_toNat hids hnd) fuel ds T (by simpa using hf)
  refine ⟨S1, { S2 with firstRun := false }, ids.map Int.toNat, e1, ?_,
    T2.data false S2.occProbList S2.entropyList S2.orderWrapList S2.orderLargestList S2.shortestP, ?_⟩
  · simp only [Perc.runOnce]; rw [e2]; rfl
  · rw [List.map_map]
    conv => rhs; rw [← List.map_id ids]
    apply List.map_congr_left
    intro i hi
    exact Int.toNat_of_nonneg (hids i hi).1

/-- Non-trivial case: the list 3, 0, 3 on a lattice of length 2. -/
example : ∃ S1 S', Perc.setCustomIds S1 [3, 0, 3] false (fun _ => 0) = .ok S' ∧ Start demoEnv .l0 2 S1 ∧
    ([(3 : Int), 0, 3].take 2).Nodup ∧ [(3 : Int), 0, 3][2]? = some 3 ∧ (3 : Int) ∈ [(3 : Int), 0, 3].take 2 ∧
    ∀ i ∈ [(3 : Int), 0, 3], 0 ≤ i ∧ i < ((2 : Nat) : Int) * (2 : Nat) := by
  obtain ⟨rev, e, _⟩ := new_ok demoEnv (L := 2) (by decide) (fun _ => 0)
  obtain ⟨S', h1, _⟩ := (Start.new (v := .l0) e).setIds (ids := [3, 0, 3]) (by decide) (by decide) (fun _ => 0)
  exact ⟨_, S', h1, .new e, by decide, rfl, by decide, by decide⟩

/-! ### C31 -/

/-- C31: `set_custome_site_index_list` is `set_custome_site_id_list` on the encoded ids. -/
theorem C31_encodes (idxs : List (List Int)) (b : Bool) (draws : Nat → Nat) :
    S.setCustomIndices idxs b draws = S.setCustomIds (idxs.map S.lat.calculateIdFromIndex) b draws := by
  simp only [Perc.setCustomIndices, Perc.setCustomIds, List.length_map]

theorem Reach.latticeOf (h : Reach env v L S) : LatticeOf L S.lat := .used h

theorem encode_pairs (h : Reach env v L S) (ps : List (Int × Int)) :
    (ps.map fun p => [p.1, p.2]).map S.lat.calculateIdFromIndex = ps.map fun p => p.1 * (L : Int) + p.2 := by
  rw [List.map_map]
  apply List.map_congr_left
  intro p _
  exact calculateId_two h.latticeOf p.1 p.2

/-- C31: a non-empty list of pairs leaves the object unchanged if the encoding `row * L + col` of some pair leaves `[0, L²)`, and is
accepted otherwise. -/
theorem C31_validates (h : Reach env v L S) {ps : List (Int × Int)} (hne : ps ≠ []) (b : Bool) (draws : Nat → Nat) :
    ((∃ p ∈ ps, p.1 * (L : Int) + p.2 < 0 ∨ (L : Int) * L ≤ p.1 * (L : Int) + p.2) ∧ S.setCustomIndices (ps.map fun p => [p.1, p.2]) b draws = .ok S) ∨
    ((∀ p ∈ ps, 0 ≤ p.1 * (L : Int) + p.2 ∧ p.1 * (L : Int) + p.2 < (L : Int) * L) ∧ ∃ S', S.setCustomIndices (ps.map fun p => [p.1, p.2]) b draws = .ok S' ∧
      S'.modeCustom = true ∧ (b = false → S'.siteIds.map Int.ofNat = ps.map fun p => p.1 * (L : Int) + p.2) ∧ S'.maxIter = ps.length) := by
  rw [C31_encodes, encode_pairs h]
  rcases C30_validates h (ids := ps.map fun p => p.1 * (L : Int) + p.2) (by simpa using hne) b draws with ⟨⟨i, hi, h1⟩, h2⟩ | ⟨h1, S', h2, h3, _, h4, h5, _⟩
  · obtain ⟨p, hp, rfl⟩ := List.mem_map.1 hi
    exact Or.inl ⟨⟨p, hp, h1⟩, h2⟩
  · exact Or.inr ⟨fun p hp => h1 _ (List.mem_map_of_mem hp), S', h2, h3, h4, by rw [h5, List.length_map]⟩

theorem pair_range {r c : Int} (hr : 0 ≤ r ∧ r < L) (hc : 0 ≤ c ∧ c < L) : 0 ≤ r * L + c ∧ r * L + c < (L : Int) * L := by
  have h1 : 0 ≤ r * L := Int.mul_nonneg hr.1 (Int.natCast_nonneg L)
  have h2 : (r + 1) * L ≤ L * L := Int.mul_le_mul_of_nonneg_right (by omega) (Int.natCast_nonneg L)
  rw [Int.add_mul, Int.one_mul] at h2
  omega

/-- C31: every list of in-range pairs is accepted, and on a plain object with nothing placed the calls of `place_one_site` that follow
occupy these sites in the given order as long as none is repeated. -/
theorem C31_order (hv : v.plain = true) (h : Start env v L S) {ps : List (Int × Int)} (hne : ps ≠ [])
    (hps : ∀ p ∈ ps, (0 ≤ p.1 ∧ p.1 < L) ∧ (0 ≤ p.2 ∧ p.2 < L)) (draws : Nat → Nat) (n : Nat) (hnd : (ps.take n).Nodup) (ds : Nat → Draw) :
    ∃ S1 S', S.setCustomIndices (ps.map fun p => [p.1, p.2]) false draws = .ok S1 ∧
      placeN env v n ds S1 = .ok (S', (List.range n).map fun j : Nat => decide (j < ps.length)) ∧
      (∀ r c : Nat, r < L → c < L → (S'.Occ (r * L + c) ↔ ((r : Int), (c : Int)) ∈ ps.take n)) := by
  have hids : ∀ i ∈ ps.map (fun p => p.1 * (L : Int) + p.2), 0 ≤ i ∧ i < (L : Int) * L := by
    intro i hi
    obtain ⟨p, hp, rfl⟩ := List.mem_map.1 hi
    exact pair_range (hps p hp).1 (hps p hp).2
  have inj : ∀ p q : Int × Int, ((0 ≤ p.1 ∧ p.1 < L) ∧ (0 ≤ p.2 ∧ p.2 < L)) → ((0 ≤ q.1 ∧ q.1 < L) ∧ (0 ≤ q.2 ∧ q.2 < L)) →
      p.1 * (L : Int) + p.2 = q.1 * (L : Int) + q.2 → p = q := by
    rintro ⟨a, b⟩ ⟨c, d⟩ ⟨⟨a0, a1⟩, b0, b1⟩ ⟨⟨c0, c1⟩, d0, d1⟩ e
    obtain ⟨a, rfl⟩ := Int.eq_ofNat_of_zero_le a0
    obtain ⟨b, rfl⟩ := Int.eq_ofNat_of_zero_le b0
    obtain ⟨c, rfl⟩ := Int.eq_ofNat_of_zero_le c0
    obtain ⟨d, rfl⟩ := Int.eq_ofNat_of_zero_le d0
    have := rc_inj (L := L) (r := a) (c := b) (r' := c) (c' := d) (by simp only at b1; omega) (by simp only at d1; omega) (by simp only at e; exact_mod_cast e)
    rw [this.1, this.2]
  rw [C31_encodes, encode_pairs h.reach]
  have hnd' : ((ps.map fun p => p.1 * (L : Int) + p.2).take n).Nodup := by
    rw [← List.map_take]
    refine List.Nodup.map_on ?_ hnd
    intro p hp q hq e
    exact inj p q (hps p (List.mem_of_mem_take hp)) (hps q (List.mem_of_mem_take hq)) e
  obtain ⟨S1, S', h1, h2, h3, _⟩ := C30_order hv h (ids := ps.map fun p => p.1 * (L : Int) + p.2) (by simpa using hne) hids draws n hnd' ds
  refine ⟨S1, S', h1, by rw [h2, List.length_map], ?_⟩
  intro r c hr hc
  rw [h3, ← List.map_take, List.mem_map]
  constructor
  · rintro ⟨p, hp, e⟩
    have := inj p ((r : Int), (c : Int)) (hps p (List.mem_of_mem_take hp)) ⟨⟨by simp, by simpa using hr⟩, by simp, by simpa using hc⟩
      (by rw [e]; push_cast; rfl)
    rw [← this]; exact hp
  · intro hp
    exact ⟨_, hp, by push_cast; rfl⟩

/-- C31: out-of-range pairs are accepted when their encoding is in range: for `L ≥ 2`, `(0, L)` means site `(1, 0)`. -/
theorem C31_accepts_out_of_range (hL : 2 ≤ L) (h : Reach env v L S) (draws : Nat → Nat) :
    S.setCustomIndices [[0, (L : Int)]] false draws = S.setCustomIndices [[1, 0]] false draws ∧
    ∃ S', S.setCustomIndices [[0, (L : Int)]] false draws = .ok S' ∧ S'.siteIds = [L] ∧ S'.maxIter = 1 := by
  have hLL : (L : Int) < L * L := by
    have := Nat.mul_le_mul_right L hL
    have h2 : L < L * L := by omega
    exact_mod_cast h2
  have e1 : [[0, (L : Int)]].map S.lat.calculateIdFromIndex = [(L : Int)] := by
    simp only [List.map_cons, List.map_nil]
    rw [calculateId_two h.latticeOf]; simp
  have e2 : [[(1 : Int), 0]].map S.lat.calculateIdFromIndex = [(L : Int)] := by
    simp only [List.map_cons, List.map_nil]
    rw [calculateId_two h.latticeOf]; simp
  rw [C31_encodes, C31_encodes, e1, e2]
  refine ⟨rfl, ?_⟩
  obtain ⟨_, A, M, _⟩ := h.sim
  exact ⟨_, setIds_off M (by simp) (by simpa using hLL) draws, rfl, rfl⟩

/-- Non-trivial case: two pairs on a lattice of length 2. -/
example : ∃ S, Start demoEnv .l0 2 S ∧ (∀ p ∈ [((1 : Int), (1 : Int)), (0, 1)], (0 ≤ p.1 ∧ p.1 < (2 : Nat)) ∧ (0 ≤ p.2 ∧ p.2 < (2 : Nat))) ∧
    ([((1 : Int), (1 : Int)), (0, 1)].take 2).Nodup := by
  obtain ⟨rev, e, _⟩ := new_ok demoEnv (L := 2) (by decide) (fun _ => 0)
  exact ⟨_, .new e, by decide, by decide⟩

/-! ### C32 -/

/-- C32: as long as no custom list is set, in every history of a plain object, including any calls of `shuffle`, `swap_ids` and `reset`,
`get_site_id_sequence()` is a permutation of all site ids and `reverse_ids_indices` is its inverse. -/
theorem C32_order (h : Reach env v L S) (hv : v.plain = true) (hm : S.modeCustom = false) :
    S.siteIds.Perm (List.range (L * L)) ∧ S.revIds.length = L * L ∧ ∀ j k : Nat, S.siteIds[j]? = some k ↔ (k < L * L ∧ S.revIds[k]? = some j) := by
  obtain ⟨_, _, h3, h4⟩ := h.order hv hm
  refine ⟨h3, h.ids.2, fun j k => ⟨fun hj => ⟨h.ids.1 k (List.mem_of_getElem? hj), h4 j k hj⟩, ?_⟩⟩
  rintro ⟨hk, hr⟩
  have hx : k ∈ S.siteIds := by rw [h3.mem_iff, List.mem_range]; exact hk
  obtain ⟨m, hm⟩ := List.mem_iff_getElem?.1 hx
  rw [h4 m k hm] at hr
  rw [← Option.some.inj hr]; exact hm

/-- C32: construction succeeds for every `L ≥ 1`, gives a permutation of `0..L²-1` with its inverse (for every class), and every
permutation is possible. -/
theorem C32_new (hL : 0 < L) :
    (∀ draws : Nat → Nat, ∃ S, Perc.new env L draws = .ok S ∧ S.siteIds.Perm (List.range (L * L)) ∧ ∀ j k : Nat, S.siteIds[j]? = some k → S.revIds[k]? = some j) ∧
    ∀ p : List Nat, p.Perm (List.range (L * L)) → ∃ draws S, Perc.new env L draws = .ok S ∧ S.siteIds = p := by
  refine ⟨fun draws => ?_, fun p hp => ?_⟩
  · obtain ⟨rev, e, _, h2⟩ := new_ok env hL draws
    exact ⟨_, e, pyShuffle_perm _ _, h2⟩
  · obtain ⟨draws, hd⟩ := pyShuffle_surj hp.symm
    obtain ⟨rev, e, _⟩ := new_ok env hL draws
    exact ⟨draws, _, e, hd⟩

/-- C32: `shuffle` never raises.  When shuffling is on it permutes the site order, every permutation being possible, and stores the
inverse if the ids are distinct; when it is off, nothing changes. -/
theorem C32_shuffle (h : Reach env v L S) :
    (∀ draws, ∃ S', S.shuffle draws = .ok S' ∧ S'.siteIds.Perm S.siteIds ∧ (S.doShuffle = false → S' = S) ∧
      (S.doShuffle = true → S.siteIds.Nodup → ∀ j k : Nat, S'.siteIds[j]? = some k → S'.revIds[k]? = some j)) ∧
    (S.doShuffle = true → ∀ p : List Nat, p.Perm S.siteIds → ∃ draws S', S.shuffle draws = .ok S' ∧ S'.siteIds = p) := by
  obtain ⟨h1, h2⟩ := h.ids
  have hlt : ∀ k ∈ S.siteIds, k < S.revIds.length := fun k hk => by rw [h2]; exact h1 k hk
  refine ⟨fun draws => ?_, fun hd p hp => ?_⟩
  · cases hd : S.doShuffle with
    | true =>
      obtain ⟨rev, e, _, h3⟩ := shuffle_default hd hlt draws
      exact ⟨_, e, pyShuffle_perm _ _, fun h => (by cases h), fun _ hn => h3 hn⟩
    | false => exact ⟨S, shuffle_off hd draws, .refl _, fun _ => rfl, fun h => (by cases h)⟩
  · obtain ⟨draws, e⟩ := pyShuffle_surj hp.symm
    obtain ⟨rev, e', _⟩ := shuffle_default hd hlt draws
    exact ⟨draws, _, e', e⟩

/-- C32: `reset` never raises.  In the plain classes it permutes the site order (every permutation being possible when shuffling is on);
in L1 and L2 it restores the order `0, 1, …, L²-1`. -/
theorem C32_reset (h : Reach env v L S) :
    (∀ draws, ∃ S', S.reset env v draws = .ok S' ∧ if v.plain then S'.siteIds.Perm S.siteIds else S'.siteIds = List.range (L * L)) ∧
    (S.doShuffle = true → v.plain = true → ∀ p : List Nat, p.Perm S.siteIds → ∃ draws S', S.reset env v draws = .ok S' ∧ S'.siteIds = p) := by
  obtain ⟨_, A, M, hA⟩ := h.sim
  refine ⟨fun draws => ?_, fun hd hv p hp => ?_⟩
  · obtain ⟨S', e⟩ := h.reset_total draws
    refine ⟨S', e, ?_⟩
    simp only [Perc.reset] at e
    cases hb : S.resetBase draws with
    | error e' => rw [hb] at e; cases e
    | ok S1 =>
      rw [hb] at e
      have hb' := hb
      have hp : S1.siteIds.Perm S.siteIds ∧ S1.lat.length ^ 2 = L * L := by
        simp only [Perc.resetBase, M.lat, reset_mk] at hb
        rw [initClusters_mk] at hb
        replace hb : (Perc.shuffle _ draws >>= _) = _ := hb
        cases hs : Perc.shuffle { S with
            lat := mkLat L LV.init
            pool := mkPool (2 * (L * L)) (PV.init (2 * (L * L)))
            pcBonds := none, pcSites := none } draws with
        | error e => rw [hs] at hb; cases hb
        | ok S2 =>
          rw [hs] at hb
          obtain ⟨ids, rev, rfl, hp, hr, _⟩ := shuffle_perm (L := L) hs
          rw [← Except.ok.inj hb]
          exact ⟨hp, Nat.pow_two L⟩
      cases v <;> rw [← Except.ok.inj e]
      · exact hp.1
      · show List.range (S1.lat.length ^ 2) = _
        rw [hp.2]
      · show List.range (S1.lat.length ^ 2) = _
        rw [hp.2]
      · exact hp.1
  · obtain ⟨draws, e⟩ := pyShuffle_surj hp.symm
    obtain ⟨rev, e', _⟩ := resetBase_default M.lat hd (by intro k hk; rw [h.ids.2]; exact h.ids.1 k hk) draws
    have : ∃ S', S.reset env v draws = .ok S' ∧ S'.siteIds = p := by
      simp only [Perc.reset]
      rw [e']
      cases v with
      | l0 => exact ⟨_, rfl, e⟩
      | sp => exact ⟨_, rfl, e⟩
      | l1 => cases hv
      | l2 => cases hv
    exact ⟨draws, this⟩

/-- C32: `swap_ids` of two site ids never raises and exchanges their positions in the site order (as long as no custom list is set, in the
plain classes).  That the result is a permutation with its inverse again is `C32_order`. -/
theorem C32_swap (h : Reach env v L S) (hv : v.plain = true) (hm : S.modeCustom = false) {i j : Nat} (hi : i < L * L) (hj : j < L * L) :
    ∃ S', S.swapIds i j = .ok S' ∧ S'.siteIds.Perm S.siteIds ∧ ∀ m : Nat, S'.siteIds[m]? =
      if S.siteIds[m]? = some i then some j else if S.siteIds[m]? = some j then some i else S.siteIds[m]? := by
  obtain ⟨_, _, hp, hI⟩ := h.order hv hm
  have hl := h.ids.2
  by_cases hij : i = j
  · subst hij
    refine ⟨S, by simp [Perc.swapIds], .refl _, fun m => ?_⟩
    split
    · next h => exact h
    · rfl
  · have q1 := List.getElem?_eq_getElem (show i < S.revIds.length by omega)
    have q2 := List.getElem?_eq_getElem (show j < S.revIds.length by omega)
    generalize S.revIds[i] = ix1 at q1
    generalize S.revIds[j] = ix2 at q2
    obtain ⟨g1, g2, z1, z2, z3⟩ := swap_inverse hp hI hl hij q1 q2
    have hnd : S.siteIds.Nodup := hp.nodup_iff.2 List.nodup_range
    have b1 := List.getElem?_eq_some_iff.1 g1
    have b2 := List.getElem?_eq_some_iff.1 g2
    refine ⟨{ S with siteIds := (S.siteIds.set ix1 j).set ix2 i, revIds := (S.revIds.set j ix1).set i ix2 }, ?_, z1, fun m => ?_⟩
    · simp only [Perc.swapIds, if_neg hij, pyGet, q1, q2]
      show (pyModify S.siteIds ix1 _ >>= _) = _
      rw [show pyModify S.siteIds ix1 (fun _ => j) = .ok (S.siteIds.set ix1 j) by simp only [pyModify, g1]]
      show (pyModify (S.siteIds.set ix1 j) ix2 _ >>= _) = _
      rw [show pyModify (S.siteIds.set ix1 j) ix2 (fun _ => i) = .ok ((S.siteIds.set ix1 j).set ix2 i) by
        simp only [pyModify]; rw [List.getElem?_eq_getElem (by rw [List.length_set]; exact b2.1)]]
      show (pyModify S.revIds j _ >>= _) = _
      rw [show pyModify S.revIds j (fun _ => ix1) = .ok (S.revIds.set j ix1) by simp only [pyModify, q2]]
      show (pyModify (S.revIds.set j ix1) i _ >>= _) = _
      rw [show pyModify (S.revIds.set j ix1) i (fun _ => ix2) = .ok ((S.revIds.set j ix1).set i ix2) by
        simp only [pyModify]; rw [List.getElem?_eq_getElem (by rw [List.length_set]; omega)]]
      rfl
    · show ((S.siteIds.set ix1 j).set ix2 i)[m]? = _
      rw [z2]
      have pos : ∀ {a x y : Nat}, S.siteIds[x]? = some a → S.siteIds[y]? = some a → x = y := by
        intro a x y hx hy
        have h1 := hI x a hx
        have h2 := hI y a hy
        rw [h1] at h2; exact Option.some.inj h2
      by_cases e2 : m = ix2
      · subst e2
        rw [if_pos rfl, if_neg (by rw [g2]; intro h; exact hij (Option.some.inj h).symm), if_pos g2]
      · rw [if_neg e2]
        by_cases e1 : m = ix1
        · subst e1; rw [if_pos rfl, if_pos g1]
        · rw [if_neg e1, if_neg (fun h => e1 (pos h g1)), if_neg (fun h => e2 (pos h g2))]

/-- C32 fails for the reverse index of L1 and L2 after `reset`: the site order is set back to `0, 1, …`, but the reverse index is that of
the order shuffled before. -/
theorem C32_stale_reverse_L1 : ∃ S : Perc Unit, ∃ S' : Perc Unit, ∃ draws : Nat → Nat, Reach demoEnv .l1 2 S ∧ S.reset demoEnv .l1 draws = .ok S' ∧
    S'.siteIds = [0, 1, 2, 3] ∧ S'.revIds ≠ [0, 1, 2, 3] := by
  obtain ⟨rev, e, _, _⟩ := new_ok demoEnv (L := 2) (by decide) (fun _ => 0)
  obtain ⟨S, hS, hp⟩ := checkOps_reach (env := demoEnv) (v := .l1) (L := 2) (ops := [])
    (p := fun S => match S.reset demoEnv .l1 (fun _ => 0) with
      | .ok S' => decide (S'.siteIds = [0, 1, 2, 3] ∧ S'.revIds ≠ [0, 1, 2, 3])
      | .error _ => false) (by decide +kernel)
  cases hr : S.reset demoEnv .l1 (fun _ => 0) with
  | error e => rw [hr] at hp; cases hp
  | ok S' =>
    rw [hr] at hp
    obtain ⟨h1, h2⟩ := of_decide_eq_true hp
    exact ⟨S, S', _, hS, hr, h1, h2⟩

/-- Non-trivial case: a history with a shuffle, a swap, a placement and a reset. -/
example : ∃ S, Reach demoEnv .l0 2 S ∧ S.modeCustom = false ∧ S.siteIds ≠ [0, 1, 2, 3] := by
  obtain ⟨S, h1, h2⟩ := checkOps_reach (env := demoEnv) (v := .l0) (L := 2)
    (ops := [.shuffle fun i => i, .swapIds 1 3, .place0, .reset fun _ => 0, .swapIds 0 1])
    (p := fun S => decide (S.modeCustom = false ∧ S.siteIds ≠ [0, 1, 2, 3])) (by decide +kernel)
  obtain ⟨h3, h4⟩ := of_decide_eq_true h2
  exact ⟨S, h1, h3, h4⟩

end SqPerc
