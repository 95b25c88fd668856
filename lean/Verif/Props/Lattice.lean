import Verif.Proof.Refine
import Verif.Proof.Trace
import Verif.Props.Demo
/-
Properties C01-C04: geometry of the lattice.
-/
namespace SqPerc

/-- The lattices a user can meet: freshly constructed, or held by a percolation object after any history of calls. -/
inductive LatticeOf (L : Nat) : Lattice → Prop
  | fresh {lat : Lattice} : Lattice.new L = .ok lat → LatticeOf L lat
  | used {α : Type} {env : Env α} {v : Variant} {S : Perc α} : Reach env v L S → LatticeOf L S.lat
  | traced {α : Type} {env : Env α} {v : Variant} {S : Perc α} {seq : List Nat} : Trace env v L S seq → LatticeOf L S.lat

theorem LatticeOf.view {L : Nat} {lat : Lattice} (h : LatticeOf L lat) : ∃ V, lat = mkLat L V := by
  cases h with
  | fresh h => rw [Lattice.new_eq, idealLattice_eq] at h; exact ⟨_, (Except.ok.inj h).symm⟩
  | used h => obtain ⟨_, A, M, _⟩ := h.sim; exact ⟨_, M.lat⟩
  | traced h => obtain ⟨_, A, M, _⟩ := h.sim; exact ⟨_, M.lat⟩

/-- Construction never fails; so the theorems below apply to every `L`. -/
theorem C01_lattice_exists (L : Nat) : ∃ lat, Lattice.new L = .ok lat := ⟨_, Lattice.new_eq L⟩

theorem LatticeOf.of_new (L : Nat) : ∃ lat, LatticeOf L lat := ⟨_, .fresh (Lattice.new_eq L)⟩

theorem forM_ok_iff {β : Type} (f : β → Py Unit) (l : List β) : l.forM f = .ok () ↔ ∀ x ∈ l, f x = .ok () := by
  induction l with
  | nil => simp; rfl
  | cons a l ih =>
    show (f a >>= fun _ => l.forM f) = _ ↔ _
    cases h : f a with
    | error e =>
      constructor
      · intro h'; cases h'
      · intro h'; have := h' a (by simp); rw [h] at this; cases this
    | ok u =>
      show l.forM f = _ ↔ _
      rw [ih]
      simp [h]

theorem pyAssert_ok_iff {b : Bool} : pyAssert b = .ok () ↔ b = true := by
  unfold pyAssert; split <;> simp_all

theorem bind_unit_ok_iff {x : Py Unit} {f : Unit → Py Unit} : (x >>= f) = .ok () ↔ x = .ok () ∧ f () = .ok () := by
  cases x with
  | error e =>
    constructor
    · intro h; cases h
    · rintro ⟨h, _⟩; cases h
  | ok u =>
    show f u = _ ↔ _
    simp

/-- C01: bonds of a site: right, down, left, up bond of the periodic lattice, all in range; beyond the range an IndexError. -/
theorem C01_bonds_of_site {L : Nat} {lat : Lattice} (h : LatticeOf L lat) (s : Nat) :
    (s < L * L → lat.getNeighborBonds s = .ok (Dir.all.map (bondAt L s)) ∧ ∀ b ∈ Dir.all.map (bondAt L s), b < 2 * (L * L)) ∧
    (L * L ≤ s → lat.getNeighborBonds s = .error .indexError) := by
  obtain ⟨V, rfl⟩ := h.view
  refine ⟨fun hs => ⟨getNeighborBonds_mk hs, ?_⟩, fun hs => ?_⟩
  · intro b hb
    obtain ⟨d, _, rfl⟩ := List.mem_map.1 hb
    exact bondAt_lt hs d
  · simp only [Lattice.getNeighborBonds, getSite_mk_error hs]; rfl

/-- C01: the sites of a bond are its two ends on the periodic lattice. -/
theorem C01_sites_of_bond {L : Nat} {lat : Lattice} (h : LatticeOf L lat) (b : Nat) :
    (b < 2 * (L * L) → ∃ ss, lat.getNeighborSites b = .ok ss ∧ ss.Perm [(bondEnds L b).1, (bondEnds L b).2] ∧
      ∀ s ∈ ss, s < L * L) ∧
    (2 * (L * L) ≤ b → lat.getNeighborSites b = .error .indexError) := by
  obtain ⟨V, rfl⟩ := h.view
  refine ⟨fun hb => ⟨_, getNeighborSites_mk hb, ?_, ?_⟩, fun hb => ?_⟩
  · unfold bondSites
    rcases Nat.le_total (bondEnds L b).1 (bondEnds L b).2 with h0 | h0
    · rw [Nat.min_eq_left h0, Nat.max_eq_right h0]
    · rw [Nat.min_eq_right h0, Nat.max_eq_left h0]; exact List.Perm.swap _ _ _
  · have := bondEnds_lt hb
    intro s hs
    simp only [bondSites, List.mem_cons, List.not_mem_nil, or_false] at hs
    omega
  · simp only [Lattice.getNeighborSites, getBond_mk_error hb]; rfl

theorem mem_bondSites {L b s : Nat} : s ∈ bondSites L b ↔ Incident L s b := by
  simp only [bondSites, Incident, List.mem_cons, List.not_mem_nil, or_false]
  omega

/-- C01: a site lists a bond iff the bond lists the site; four bonds per site, two sites per bond. -/
theorem C01_incidence {L : Nat} {lat : Lattice} (h : LatticeOf L lat) {s b : Nat} (hs : s < L * L) (hb : b < 2 * (L * L)) :
    ∃ bs ss, lat.getNeighborBonds s = .ok bs ∧ lat.getNeighborSites b = .ok ss ∧ bs.length = 4 ∧ ss.length = 2 ∧
      (b ∈ bs ↔ s ∈ ss) := by
  obtain ⟨V, rfl⟩ := h.view
  refine ⟨_, _, getNeighborBonds_mk hs, getNeighborSites_mk hb, rfl, rfl, ?_⟩
  rw [mem_siteBonds, mem_bondSites, incident_iff hb]
  simp [hs]

/-- C01: the self checks `scan_sites` and `scan_bonds` never fail. -/
theorem C01_scans_pass {L : Nat} {lat : Lattice} (h : LatticeOf L lat) : lat.scanSites = .ok () ∧ lat.scanBonds = .ok () := by
  obtain ⟨V, rfl⟩ := h.view
  constructor
  · simp only [Lattice.scanSites, forM_ok_iff]
    intro ss hss
    simp only [mkLat, List.mem_map, List.mem_range] at hss
    obtain ⟨s, hs, rfl⟩ := hss
    simp only [Lattice.scanSite, bind_unit_ok_iff, pyAssert_ok_iff, forM_ok_iff]
    refine ⟨?_, rfl, ?_⟩
    · simp only [Lattice.calculateIdFromIndex, mkSite, idealSite, mkLat_length]
      simp [List.range_succ]
      rw [← Int.natCast_ediv, ← Int.natCast_emod]
      norm_cast
      rw [Nat.mul_comm]; exact (Nat.div_add_mod' s L).symm
    · intro b hb
      have hb' : b < 2 * (L * L) := by
        obtain ⟨d, rfl⟩ := mem_siteBonds.1 hb; exact bondAt_lt hs d
      rw [getNeighborSites_mk hb']
      show pyAssert _ = _
      rw [pyAssert_ok_iff, decide_eq_true_iff]
      rw [mem_bondSites, incident_iff hb']
      exact ⟨hs, mem_siteBonds.1 hb⟩
  · simp only [Lattice.scanBonds, forM_ok_iff]
    intro bb hbb
    simp only [mkLat, List.mem_map, List.mem_range] at hbb
    obtain ⟨b, hb, rfl⟩ := hbb
    simp only [Lattice.scanBond, bind_unit_ok_iff, pyAssert_ok_iff, forM_ok_iff]
    refine ⟨?_, rfl, ?_⟩
    · simp only [Lattice.calculateIdFromIndex, mkBond, idealBond, mkLat_length, Bond.getIndex]
      simp [List.range_succ]
      rw [← Int.natCast_mul, ← Int.natCast_ediv, ← Int.natCast_emod, ← Int.natCast_ediv, ← Int.natCast_emod]
      norm_cast
      have h1 := Nat.div_add_mod' b (L * L)
      have h2 := Nat.div_add_mod' (b % (L * L)) L
      have h3 : b % (L * L) % L = b % L := Nat.mod_mul_left_mod ..
      have h4 := Nat.mul_comm L (b % (L * L) / L)
      rw [Nat.pow_two, Nat.mul_comm (L * L)]
      omega
    · intro s hs
      have hs2 := (incident_iff hb).1 (mem_bondSites.1 hs)
      rw [getNeighborBonds_mk hs2.1]
      show pyAssert _ = _
      rw [pyAssert_ok_iff, decide_eq_true_iff]
      exact mem_siteBonds.2 hs2.2

theorem eraseDups_of_nodup {l : List Nat} (h : l.Nodup) : l.eraseDups = l := by
  induction l with
  | nil => rfl
  | cons a l ih =>
    rw [List.nodup_cons] at h
    rw [List.eraseDups_cons, List.filter_eq_self.2, ih h.2]
    intro b hb
    have : b ≠ a := fun e => h.1 (e ▸ hb)
    simpa using this

/-- C01: for `L ≥ 2` the four bonds of a site are distinct and the two sites of a bond are distinct. -/
theorem C01_distinct {L : Nat} {lat : Lattice} (h : LatticeOf L lat) (hL : 2 ≤ L) :
    (∀ s bs, lat.getNeighborBonds s = .ok bs → bs.Nodup) ∧ (∀ b ss, lat.getNeighborSites b = .ok ss → ss.Nodup) ∧
      lat.testNeighborCount = .ok () := by
  have key : ∀ s < L * L, (siteBonds L s).Nodup := by
    intro s hs
    rw [siteBonds_eq]
    refine List.Nodup.map_on ?_ (by decide)
    intro d _ d' _ e
    exact bondAt_inj hL hs e
  obtain ⟨V, rfl⟩ := h.view
  refine ⟨?_, ?_, ?_⟩
  · intro s bs e
    by_cases hs : s < L * L
    · rw [getNeighborBonds_mk hs] at e
      rw [← Except.ok.inj e]; exact key s hs
    · simp only [Lattice.getNeighborBonds, getSite_mk_error (Nat.le_of_not_lt hs)] at e; cases e
  · intro b ss e
    by_cases hb : b < 2 * (L * L)
    · rw [getNeighborSites_mk hb] at e
      rw [← Except.ok.inj e]
      have hne : (bondEnds L b).1 ≠ (bondEnds L b).2 := by
        unfold bondEnds
        split
        · next hb => exact (nbr_ne hL hb .right).symm
        · exact (nbr_ne hL (by omega) .down).symm
      simp only [bondSites, List.nodup_cons, List.mem_cons, List.not_mem_nil, or_false, not_false_eq_true, List.nodup_nil, and_true]
      omega
    · simp only [Lattice.getNeighborSites, getBond_mk_error (Nat.le_of_not_lt hb)] at e; cases e
  · simp only [Lattice.testNeighborCount, bind_unit_ok_iff, pyAssert_ok_iff, forM_ok_iff]
    constructor
    · intro ss hss
      simp only [mkLat, List.mem_map, List.mem_range] at hss
      obtain ⟨s, hs, rfl⟩ := hss
      have : (siteBonds L s).eraseDups = siteBonds L s := eraseDups_of_nodup (key s hs)
      rw [decide_eq_true_iff]
      show (siteBonds L s).eraseDups.length = 4
      rw [this]; rfl
    · intro bb hbb
      simp only [mkLat, List.mem_map, List.mem_range] at hbb
      obtain ⟨b, hb, rfl⟩ := hbb
      rfl

/-- C01: for `L = 1` they are not distinct and `test_neighbor_count` fails. -/
theorem C01_length_one {lat : Lattice} (h : LatticeOf 1 lat) :
    lat.getNeighborBonds 0 = .ok [0, 1, 0, 1] ∧ lat.getNeighborSites 0 = .ok [0, 0] ∧
      lat.testNeighborCount = .error .assertionError := by
  obtain ⟨V, rfl⟩ := h.view
  exact ⟨rfl, rfl, rfl⟩

/-- Non-trivial case: the lattice of length 3. -/
example : ∃ lat, LatticeOf 3 lat ∧ lat.getNeighborBonds 0 = .ok [0, 9, 2, 15] ∧ lat.getNeighborSites 15 = .ok [0, 6] := by
  refine ⟨_, .fresh (Lattice.new_eq 3), rfl, by decide⟩

/-! ### C02 -/

/-- C02: the code's encoding of a site index and of a bond index. -/
theorem calculateId_two {L : Nat} {lat : Lattice} (h : LatticeOf L lat) (a b : Int) :
    lat.calculateIdFromIndex [a, b] = a * L + b := by
  obtain ⟨V, rfl⟩ := h.view
  simp [Lattice.calculateIdFromIndex, List.range_succ, Int.mul_comm]

theorem calculateId_three {L : Nat} {lat : Lattice} (h : LatticeOf L lat) (t a b : Int) :
    lat.calculateIdFromIndex [t, a, b] = t * (L * L) + (a * L + b) := by
  obtain ⟨V, rfl⟩ := h.view
  simp [Lattice.calculateIdFromIndex, List.range_succ, Int.mul_comm, Int.pow_succ]

theorem LatticeOf.length {L : Nat} {lat : Lattice} (h : LatticeOf L lat) : lat.length = L := by
  obtain ⟨V, rfl⟩ := h.view; rfl

/-- C02: the index of every site object encodes its id, and is in range. -/
theorem C02_site_id {L : Nat} {lat : Lattice} (h : LatticeOf L lat) {s : Nat} (hs : s < L * L) :
    ∃ st, lat.getSite s = .ok st ∧ st.id = s ∧ (0 ≤ st.index.c1 ∧ st.index.c1 < L) ∧ (0 ≤ st.index.c2 ∧ st.index.c2 < L) ∧
      lat.calculateIdFromIndex [st.index.c1, st.index.c2] = s ∧ lat.getSiteByIndex st.index = .ok st := by
  have hid := calculateId_two h
  obtain ⟨V, rfl⟩ := h.view
  have hL : 0 < L := pos_of_lt_sq hs
  have e1 : ((s / L : Nat) : Int) * L + (s % L : Nat) = s := by
    have := Nat.div_add_mod' s L
    norm_cast
  have hlt : s / L < L := Nat.div_lt_of_lt_mul hs
  have hlt2 : s % L < L := Nat.mod_lt _ hL
  refine ⟨_, getSite_mk hs, rfl, ⟨?_, ?_⟩, ⟨?_, ?_⟩, ?_, ?_⟩
  · exact Int.natCast_nonneg _
  · show ((s / L : Nat) : Int) < L
    omega
  · exact Int.natCast_nonneg _
  · show ((s % L : Nat) : Int) < L
    omega
  · rw [hid]; exact e1
  · simp only [Lattice.getSiteByIndex]
    show pyGetI _ (((s / L : Nat) : Int) * L + (s % L : Nat)) = _
    rw [e1]
    simp only [pyGetI, Int.natCast_nonneg, if_true, Int.toNat_natCast]
    exact getSite_mk hs

/-- C02: the index of every bond object encodes its id. -/
theorem C02_bond_id {L : Nat} {lat : Lattice} (h : LatticeOf L lat) {b : Nat} (hb : b < 2 * (L * L)) :
    ∃ bd, lat.getBond b = .ok bd ∧ bd.id = b ∧ bd.type < 2 ∧ bd.row < L ∧ bd.col < L ∧ lat.calculateIdFromIndex bd.getIndex = b ∧
      lat.getBondByIndex bd.row bd.col bd.type = .ok bd := by
  have hid := calculateId_three h
  obtain ⟨V, rfl⟩ := h.view
  have hLL : 0 < L * L := by omega
  have hL : 0 < L := pos_of_lt_sq hLL
  have h1 := Nat.div_add_mod' b (L * L)
  have h2 := Nat.div_add_mod' (b % (L * L)) L
  have e1 : ((b / (L * L) : Nat) : Int) * (L * L) + (((b % (L * L) / L : Nat) : Int) * L + (b % (L * L) % L : Nat)) = b := by
    norm_cast; omega
  refine ⟨_, getBond_mk hb, rfl, ?_, ?_, ?_, ?_, ?_⟩
  · exact Nat.div_lt_of_lt_mul (by omega)
  · exact Nat.div_lt_of_lt_mul (Nat.mod_lt _ hLL)
  · exact Nat.mod_lt _ hL
  · simp only [Bond.getIndex]
    rw [hid]; exact e1
  · simp only [Lattice.getBondByIndex]
    show pyGetI _ (((b % (L * L) / L : Nat) : Int) * L + (b % (L * L) % L : Nat) + ((b / (L * L) : Nat) : Int) * (L : Int) ^ 2) = _
    have e2 : ((b % (L * L) / L : Nat) : Int) * L + (b % (L * L) % L : Nat) + ((b / (L * L) : Nat) : Int) * (L : Int) ^ 2 = b := by
      rw [Int.pow_succ, Int.pow_succ, Int.pow_zero, Int.one_mul, Int.add_comm]; exact e1
    rw [e2]
    simp only [pyGetI, Int.natCast_nonneg, if_true, Int.toNat_natCast]
    exact getBond_mk hb

/-- C02: the encodings are injective on in-range indices and stay in range. -/
theorem C02_site_encoding {L : Nat} {lat : Lattice} (h : LatticeOf L lat) {r c r' c' : Nat} (hr : r < L) (hc : c < L)
    (_hr' : r' < L) (hc' : c' < L) :
    (0 ≤ lat.calculateIdFromIndex [r, c] ∧ lat.calculateIdFromIndex [r, c] < L * L) ∧
    (lat.calculateIdFromIndex [r, c] = lat.calculateIdFromIndex [r', c'] → r = r' ∧ c = c') := by
  rw [calculateId_two h, calculateId_two h]
  refine ⟨⟨by positivity, ?_⟩, fun e => rc_inj hc hc' (by exact_mod_cast e)⟩
  have := mul_add_lt hr hc
  exact_mod_cast this

theorem C02_bond_encoding {L : Nat} {lat : Lattice} (h : LatticeOf L lat) {t r c t' r' c' : Nat} (ht : t < 2) (hr : r < L) (hc : c < L)
    (_ht' : t' < 2) (hr' : r' < L) (hc' : c' < L) :
    (0 ≤ lat.calculateIdFromIndex [t, r, c] ∧ lat.calculateIdFromIndex [t, r, c] < 2 * (L * L)) ∧
    (lat.calculateIdFromIndex [t, r, c] = lat.calculateIdFromIndex [t', r', c'] → t = t' ∧ r = r' ∧ c = c') := by
  rw [calculateId_three h, calculateId_three h]
  have h1 := mul_add_lt hr hc
  have h2 := mul_add_lt hr' hc'
  refine ⟨⟨by positivity, ?_⟩, fun e => ?_⟩
  · have : t * (L * L) + (r * L + c) < 2 * (L * L) := by
      have : t * (L * L) ≤ 1 * (L * L) := Nat.mul_le_mul_right _ (by omega)
      omega
    exact_mod_cast this
  · have e : t * (L * L) + (r * L + c) = t' * (L * L) + (r' * L + c') := by exact_mod_cast e
    obtain ⟨e1, e2⟩ := rc_inj (L := L * L) h1 h2 e
    exact ⟨e1, rc_inj hc hc' e2⟩

/-- C02: `get_row_col_from_id` (which returns `(col, row)`) inverts `get_id_from_index`. -/
theorem C02_row_col {L : Nat} {lat : Lattice} (h : LatticeOf L lat) :
    (∀ r c, c < L → lat.getRowColFromId (lat.getIdFromIndex r c) = (c, r)) ∧
    (∀ s, lat.getIdFromIndex (lat.getRowColFromId s).2 (lat.getRowColFromId s).1 = s) := by
  have hl := h.length
  refine ⟨fun r c hc => ?_, fun s => ?_⟩
  · simp only [Lattice.getRowColFromId, Lattice.getIdFromIndex, hl, mul_add_div_L hc, mul_add_mod_L hc]
  · simp only [Lattice.getRowColFromId, Lattice.getIdFromIndex]
    exact Nat.div_add_mod' _ _

/-- The guard `c < L` matters: `(0, L)` encodes the same site as `(1, 0)`. -/
example {L : Nat} {lat : Lattice} (h : LatticeOf L lat) : lat.calculateIdFromIndex [0, L] = lat.calculateIdFromIndex [1, 0] := by
  rw [calculateId_two h, calculateId_two h]; simp

/-! ### C03 -/

/-- C03: both neighbour queries return the right, down, left, up neighbour. -/
theorem C03_neighbours {L : Nat} {lat : Lattice} (h : LatticeOf L lat) {s : Nat} (hs : s < L * L) :
    lat.getSiteNeighborOfSite s = .ok [nbr L s .right, nbr L s .down, nbr L s .left, nbr L s .up] ∧
    lat.getAllNeighborSites s = .ok [nbr L s .right, nbr L s .down, nbr L s .left, nbr L s .up] := by
  obtain ⟨V, rfl⟩ := h.view
  refine ⟨?_, getAllNeighborSites_mk hs⟩
  simp only [Lattice.getSiteNeighborOfSite, getNeighborBonds_mk hs]
  show (siteBonds L s).mapM ((mkLat L V).otherEnd s) = _
  rw [siteBonds_eq]
  have : ∀ ds : List Dir, (ds.map (bondAt L s)).mapM ((mkLat L V).otherEnd s) = .ok (ds.map (nbr L s)) := by
    intro ds
    induction ds with
    | nil => rfl
    | cons d ds ih =>
      rw [List.map_cons, List.mapM_cons, otherEnd_mk hs]
      show ((List.mapM ((mkLat L V).otherEnd s) (ds.map (bondAt L s)) : Py (List Nat)) >>= _) = _
      rw [ih]; rfl
  exact this Dir.all

/-- C03: the neighbour relation the queries report is symmetric, and neighbours are in range. -/
theorem C03_symmetric {L : Nat} {lat : Lattice} (h : LatticeOf L lat) {s t : Nat} {ns nt : List Nat}
    (h1 : lat.getSiteNeighborOfSite s = .ok ns) (h2 : t ∈ ns) (h3 : lat.getSiteNeighborOfSite t = .ok nt) :
    s ∈ nt ∧ t < L * L := by
  by_cases hs : s < L * L
  · rw [(C03_neighbours h hs).1] at h1
    rw [← Except.ok.inj h1] at h2
    have : ∃ d, t = nbr L s d := by
      simp only [List.mem_cons, List.not_mem_nil, or_false] at h2
      rcases h2 with h2 | h2 | h2 | h2 <;> exact ⟨_, h2⟩
    obtain ⟨d, rfl⟩ := this
    have ht := nbr_lt hs d
    rw [(C03_neighbours h ht).1] at h3
    rw [← Except.ok.inj h3]
    refine ⟨?_, ht⟩
    have := nbr_opp hs d
    cases d <;> simp only [Dir.opp] at this <;> simp [this]
  · obtain ⟨V, rfl⟩ := h.view
    simp only [Lattice.getSiteNeighborOfSite, Lattice.getNeighborBonds, getSite_mk_error (Nat.le_of_not_lt hs)] at h1
    cases h1

example : ∃ lat, LatticeOf 3 lat ∧ lat.getSiteNeighborOfSite 0 = .ok [1, 3, 2, 6] :=
  ⟨_, .fresh (Lattice.new_eq 3), by decide +kernel⟩

/-! ### C04 -/

/-- Distance on a circle of `L` points. -/
def circDist (L : Nat) (a b : Int) : Nat := min (a - b).natAbs (L - (a - b).natAbs)

/-- C04: symmetric. -/
theorem C04_symmetric (lat : Lattice) (i j : Idx) : lat.distanceBtnSites i j = lat.distanceBtnSites j i := by
  unfold Lattice.distanceBtnSites
  rw [show (i.c1 - j.c1).natAbs = (j.c1 - i.c1).natAbs by omega, show (i.c2 - j.c2).natAbs = (j.c2 - i.c2).natAbs by omega]

theorem fold_eq {lat : Lattice} {L : Nat} (hl : lat.length = L) (i j : Idx) {a b : Int}
    (h1 : ∀ x : Int, x = (i.c1 - j.c1).natAbs → (x = (L : Int) - 1 ∧ a = 1) ∨ (x ≠ (L : Int) - 1 ∧ a = x))
    (h2 : ∀ x : Int, x = (i.c2 - j.c2).natAbs → (x = (L : Int) - 1 ∧ b = 1) ∨ (x ≠ (L : Int) - 1 ∧ b = x)) :
    lat.distanceBtnSites i j = (a, b) := by
  subst hl
  unfold Lattice.distanceBtnSites
  have e1 : (if ((i.c1 - j.c1).natAbs : Int) = (lat.length : Int) - 1 then (1 : Int) else (i.c1 - j.c1).natAbs) = a := by
    rcases h1 _ rfl with ⟨h, e⟩ | ⟨h, e⟩
    · rw [if_pos h, e]
    · rw [if_neg h, e]
  have e2 : (if ((i.c2 - j.c2).natAbs : Int) = (lat.length : Int) - 1 then (1 : Int) else (i.c2 - j.c2).natAbs) = b := by
    rcases h2 _ rfl with ⟨h, e⟩ | ⟨h, e⟩
    · rw [if_pos h, e]
    · rw [if_neg h, e]
  exact Prod.ext e1 e2

/-- C04: nearest neighbours on the periodic lattice are at distance (0,1) or (1,0). -/
theorem C04_neighbours {L : Nat} {lat : Lattice} (h : LatticeOf L lat) (hL : 2 ≤ L) {s : Nat} (hs : s < L * L) (d : Dir)
    {st tt : Site} (h1 : lat.getSite s = .ok st) (h2 : lat.getSite (nbr L s d) = .ok tt) :
    lat.distanceBtnSites st.index tt.index = ((d.vec.1.natAbs : Int), (d.vec.2.natAbs : Int)) := by
  obtain ⟨V, rfl⟩ := h.view
  rw [getSite_mk hs] at h1
  rw [getSite_mk (nbr_lt hs d)] at h2
  rw [← Except.ok.inj h1, ← Except.ok.inj h2]
  obtain ⟨r, c, hr, hc, rfl⟩ := exists_rc hs
  have hi : ∀ r c, c < L → (mkSite L V (r * L + c)).index = ⟨r, c⟩ := fun r c hc => by
    simp only [mkSite, idealSite, mul_add_div_L hc, mul_add_mod_L hc]
  have e1 := succ_mod_cases hr
  have e2 := succ_mod_cases hc
  have e3 := pred_mod_cases hr
  have e4 := pred_mod_cases hc
  have l1 := succ_mod_lt hr
  have l2 := succ_mod_lt hc
  have l3 := pred_mod_lt hr
  have l4 := pred_mod_lt hc
  cases d
  · rw [nbr_right_rc hc, hi _ _ hc, hi _ _ l2]
    refine fold_eq mkLat_length _ _ ?_ ?_ <;> simp only [Dir.vec]
    all_goals split at e2 <;> omega
  · rw [nbr_down_rc hc, hi _ _ hc, hi _ _ hc]
    refine fold_eq mkLat_length _ _ ?_ ?_ <;> simp only [Dir.vec]
    all_goals split at e1 <;> omega
  · rw [nbr_left_rc hc, hi _ _ hc, hi _ _ l4]
    refine fold_eq mkLat_length _ _ ?_ ?_ <;> simp only [Dir.vec]
    all_goals split at e4 <;> omega
  · rw [nbr_up_rc hc, hi _ _ hc, hi _ _ hc]
    refine fold_eq mkLat_length _ _ ?_ ?_ <;> simp only [Dir.vec]
    all_goals split at e3 <;> omega

/-- C04: each component is the periodic distance exactly when the plain difference is at most `L/2` or is the full width `L - 1`. -/
theorem C04_periodic_iff {L : Nat} {lat : Lattice} (h : LatticeOf L lat) (hL : 2 ≤ L) {i j : Idx}
    (hi : 0 ≤ i.c1 ∧ i.c1 < L ∧ 0 ≤ i.c2 ∧ i.c2 < L) (hj : 0 ≤ j.c1 ∧ j.c1 < L ∧ 0 ≤ j.c2 ∧ j.c2 < L) :
    ((lat.distanceBtnSites i j).1 = circDist L i.c1 j.c1 ↔
      2 * (i.c1 - j.c1).natAbs ≤ L ∨ (i.c1 - j.c1).natAbs = L - 1) ∧
    ((lat.distanceBtnSites i j).2 = circDist L i.c2 j.c2 ↔
      2 * (i.c2 - j.c2).natAbs ≤ L ∨ (i.c2 - j.c2).natAbs = L - 1) := by
  have hl := h.length
  simp only [Lattice.distanceBtnSites, hl, circDist]
  constructor
  · split <;> omega
  · split <;> omega

/-- C04: so from `L = 5` on it is not the periodic distance: sites (0,0) and (0,L-2) are two steps apart. -/
theorem C04_not_periodic {L : Nat} {lat : Lattice} (h : LatticeOf L lat) (hL : 5 ≤ L) :
    (lat.distanceBtnSites ⟨0, 0⟩ ⟨0, (L : Int) - 2⟩).2 = (L : Int) - 2 ∧ circDist L 0 ((L : Int) - 2) = 2 := by
  have hl := h.length
  simp only [Lattice.distanceBtnSites, hl, circDist]
  constructor
  · split <;> omega
  · omega

example : ∃ lat, LatticeOf 3 lat ∧ lat.distanceBtnSites ⟨0, 0⟩ ⟨2, 0⟩ = (1, 0) :=
  ⟨_, .fresh (Lattice.new_eq 3), by decide⟩

end SqPerc
