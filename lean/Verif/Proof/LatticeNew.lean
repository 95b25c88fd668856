import Verif.Model.Lattice
import Verif.Proof.Torus
/-
The constructed lattice in closed form.
-/
namespace SqPerc

set_option linter.unusedSimpArgs false

/-! ### Lists of the form `(List.range n).map f` -/

theorem pyGet_map_range {α : Type} (n i : Nat) (f : Nat → α) (h : i < n) : pyGet ((List.range n).map f) i = .ok (f i) := by
  simp [pyGet, h]

theorem pyGet_map_range_error {α : Type} (n i : Nat) (f : Nat → α) (h : n ≤ i) :
    pyGet ((List.range n).map f) i = .error .indexError := by
  have : ¬ i < n := by omega
  simp [pyGet, this]

theorem set_map_range {α : Type} (n i : Nat) (f : Nat → α) (v : α) :
    ((List.range n).map f).set i v = (List.range n).map fun j => if j = i then v else f j := by
  apply List.ext_getElem?
  intro j
  by_cases hj : j < n
  · by_cases hji : j = i
    · subst hji
      simp [hj]
    · rw [List.getElem?_set_ne (by omega)]
      simp [hj, hji]
  · simp [hj]

theorem pyModify_map_range {α : Type} (n i : Nat) (f : Nat → α) (g : α → α) (h : i < n) :
    pyModify ((List.range n).map f) i g = .ok ((List.range n).map fun j => if j = i then g (f i) else f j) := by
  simp only [pyModify, List.getElem?_map, List.getElem?_range h, Option.map_some]
  rw [set_map_range]

theorem map_range_congr {α : Type} {n : Nat} {f g : Nat → α} (h : ∀ i < n, f i = g i) :
    (List.range n).map f = (List.range n).map g :=
  List.map_congr_left fun i hi => h i (List.mem_range.1 hi)

/-! ### The loops over the grid -/

theorem flatMap_grid (L n : Nat) : ((List.range n).flatMap fun rr => (List.range L).map fun cc => (rr, cc)) =
    (List.range (n * L)).map fun s => (s / L, s % L) := by
  induction n with
  | zero => simp
  | succ n ih =>
    rw [List.range_succ, List.flatMap_append, ih, Nat.succ_mul, List.range_add, List.map_append]
    congr 1
    simp only [List.flatMap_singleton, List.map_map]
    apply map_range_congr
    intro c hc
    simp [mul_add_div_L hc, mul_add_mod_L hc]

theorem gridPairs_eq (L : Nat) : Lattice.gridPairs L = (List.range (L * L)).map fun s => (s / L, s % L) :=
  flatMap_grid L L

/-! ### Ideal site and bond -/

/-- The site object with id `i` right after construction. -/
def idealSite (L i : Nat) : Site :=
  { id := i, gid := -1, index := ⟨(i / L : Nat), (i % L : Nat)⟩, rel := Idx.zero
    bonds := [bondAt L i .right, bondAt L i .down, bondAt L i .left, bondAt L i .up], nn1 := 4, nn2 := 4 }

/-- The site list of bond `b`: its two ends in increasing order. -/
def bondSites (L b : Nat) : List Nat :=
  [min (bondEnds L b).1 (bondEnds L b).2, max (bondEnds L b).1 (bondEnds L b).2]

/-- The bond object with id `b` right after construction. -/
def idealBond (L b : Nat) : Bond :=
  { id := b, gid := -1, row := b % (L * L) / L, col := b % (L * L) % L, type := b / (L * L), sites := bondSites L b }

/-- The lattice right after construction. -/
def idealLattice (L : Nat) : Lattice :=
  { length := L
    sites := (List.range (L * L)).map (idealSite L)
    bonds := (List.range (2 * (L * L))).map (idealBond L) }

/-- The state of `init_lattice` after `n` iterations. -/
def initStage (L n : Nat) : Lattice :=
  { length := L
    sites := (List.range (L * L)).map fun i => if i < n then Site.new (i / L) (i % L) i else Site.new 0 0 0
    bonds := (List.range (2 * (L * L))).map fun b =>
      if b % (L * L) < n then Bond.new (b % (L * L) / L) (b % (L * L) % L) (b / (L * L)) b else Bond.new 0 0 0 0 }

theorem rep_eq_map_range {α : Type} (n : Nat) (a : α) : List.replicate n a = (List.range n).map fun _ => a := by
  apply List.ext_getElem?
  intro i
  by_cases h : i < n <;> simp [h]

theorem initStage_step (L n : Nat) (hn : n < L * L) :
    Lattice.initLatticeStep (initStage L n) (n / L, n % L) = initStage L (n + 1) := by
  have e : n / L * L + n % L = n := Nat.div_add_mod' n L
  have hm : ∀ b, b < 2 * (L * L) → (b = n ∨ b = n + L * L ↔ b % (L * L) = n) := by
    intro b hb
    by_cases hbl : b < L * L
    · rw [Nat.mod_eq_of_lt hbl]; omega
    · rw [show b = (b - L * L) + L * L by omega, Nat.add_mod_right, Nat.mod_eq_of_lt (by omega)]; omega
  simp only [Lattice.initLatticeStep, initStage, set_map_range, Nat.pow_two, e]
  congr 1
  · apply map_range_congr
    intro i _
    by_cases h : i = n
    · subst h; simp
    · by_cases h2 : i < n
      · simp [h, h2, Nat.lt_succ_of_lt h2]
      · have : ¬ i < n + 1 := by omega
        simp [h, h2, this]
  · apply map_range_congr
    intro b hb
    have := hm b hb
    by_cases h1 : b = n + L * L
    · subst h1
      have h2 : (n + L * L) % (L * L) = n := this.1 (Or.inr rfl)
      have hpos : 0 < L * L := by omega
      simp [h2, Nat.div_eq_of_lt hn, Nat.add_div_right _ hpos]
    · by_cases h2 : b = n
      · subst h2
        rw [Nat.mod_eq_of_lt hn, if_neg h1]
        simp [Nat.div_eq_of_lt hn]
      · have h3 : b % (L * L) ≠ n := by omega
        by_cases h4 : b % (L * L) < n
        · simp [h1, h2, h4, Nat.lt_succ_of_lt h4]
        · have : ¬ b % (L * L) < n + 1 := by omega
          simp [h1, h2, h4, this]

theorem initLattice_eq (L : Nat) : Lattice.initLattice (Lattice.blank L) = initStage L (L * L) := by
  have key : ∀ n, n ≤ L * L →
      ((List.range n).map fun s => (s / L, s % L)).foldl Lattice.initLatticeStep (Lattice.blank L) = initStage L n := by
    intro n
    induction n with
    | zero =>
      intro _
      show Lattice.blank L = _
      unfold Lattice.blank
      rw [rep_eq_map_range, rep_eq_map_range, Nat.pow_two]
      simp only [initStage, Nat.not_lt_zero, if_false]
    | succ n ih =>
      intro h
      rw [List.range_succ, List.map_append, List.foldl_append, ih (by omega)]
      exact initStage_step L n (by omega)
  have : Lattice.initLattice (Lattice.blank L) = (Lattice.gridPairs L).foldl Lattice.initLatticeStep (Lattice.blank L) := rfl
  rw [this, gridPairs_eq, key _ (Nat.le_refl _)]

/-! ### `init_ids` -/

theorem bondList_eq (lat : Lattice) (L s : Nat) (h : lat.length = L) (hs : s < L * L) :
    lat.findNeighborBonds s = [bondAt L s .right, bondAt L s .down, bondAt L s .left, bondAt L s .up] := by
  obtain ⟨r, c, hr, hc, rfl⟩ := exists_rc hs
  have hpos : 0 < L := by omega
  simp only [Lattice.findNeighborBonds, Lattice.rightBond, Lattice.bottomBond, Lattice.leftBond, Lattice.topBond,
    Lattice.getRowColFromId, Lattice.siteCount, Lattice.bondCount, h, bondAt, Nat.pow_two]
  rw [mul_add_div_L hc, mul_add_mod_L hc, nbr_left_rc hc, nbr_up_rc hc]
  have e1 : c + L - 1 = c + (L - 1) := by omega
  have e2 : (r * L + c + 2 * (L * L) - L) % (L * L) = (r + (L - 1)) % L * L + c := by
    rw [pred_mod_cases hr]
    have hLL : L ≤ L * L := Nat.le_mul_of_pos_left L hpos
    split
    · next h0 =>
      subst h0
      have h5 : (L - 1) * L = L * L - L := by rw [Nat.sub_mul, Nat.one_mul]
      have h6 : 0 * L + c + 2 * (L * L) - L = (L - 1) * L + c + L * L := by omega
      rw [h6, Nat.add_mod_right, Nat.mod_eq_of_lt (mul_add_lt (by omega) hc)]
    · next h0 =>
      have h5 : (r - 1) * L + L = r * L := by
        rw [← Nat.succ_mul]; congr 1; omega
      have h6 : r * L + c + 2 * (L * L) - L = (r - 1) * L + c + L * L + L * L := by omega
      rw [h6, Nat.add_mod_right, Nat.add_mod_right, Nat.mod_eq_of_lt (mul_add_lt (by omega) hc)]
  rw [e1, e2]
  simp [Nat.add_comm]

/-- How often a bond occurs among the four bonds of a site: once per end. -/
theorem count_bonds {L s b : Nat} (hs : s < L * L) (hb : b < 2 * (L * L)) :
    [bondAt L s .right, bondAt L s .down, bondAt L s .left, bondAt L s .up].count b =
      (if (bondEnds L b).1 = s then 1 else 0) + (if (bondEnds L b).2 = s then 1 else 0) := by
  have hl := nbr_lt hs .left
  have hu := nbr_lt hs .up
  have hol := nbr_opp hs .left
  have hou := nbr_opp hs .up
  simp only [Dir.opp] at hol hou
  by_cases hbl : b < L * L
  · have e1 : (bondEnds L b) = (b, nbr L b .right) := by simp [bondEnds, hbl]
    have hob := nbr_opp hbl .right
    simp only [Dir.opp] at hob
    have h2 : (nbr L b .right = s) ↔ (nbr L s .left = b) := by
      constructor
      · intro h; rw [← h, hob]
      · intro h; rw [← h, hol]
    have h3 : ¬ (L * L + s = b) := by omega
    have h4 : ¬ (L * L + nbr L s .up = b) := by omega
    simp only [e1, bondAt, List.count_cons, List.count_nil, beq_iff_eq, h2, h3, h4, if_false]
    have h7 : (b = s) ↔ (s = b) := eq_comm
    simp only [h7]
    omega
  · have e1 : (bondEnds L b) = (b - L * L, nbr L (b - L * L) .down) := by simp [bondEnds, hbl]
    have hbl' : b - L * L < L * L := by omega
    have hob := nbr_opp hbl' .down
    simp only [Dir.opp] at hob
    have h2 : (nbr L (b - L * L) .down = s) ↔ (L * L + nbr L s .up = b) := by
      constructor
      · intro h; rw [← h, hob]; omega
      · intro h; rw [← h, Nat.add_sub_cancel_left, hou]
    have h3 : ¬ (s = b) := by omega
    have h4 : ¬ (nbr L s .left = b) := by omega
    have h1 : (b - L * L = s) ↔ (L * L + s = b) := by omega
    simp only [e1, bondAt, List.count_cons, List.count_nil, beq_iff_eq, h1, h2, h3, h4, if_false]
    omega

/-- `addConnectedSite s` repeated `n` times. -/
def addTimes (s : Nat) : Nat → Bond → Bond
  | 0, b => b
  | n + 1, b => addTimes s n (b.addConnectedSite s)

theorem addSiteToBonds_eq (s : Nat) (bs : List Nat) (N : Nat) (f : Nat → Bond) (len : Nat) (sites : List Site)
    (h : ∀ b ∈ bs, b < N) :
    Lattice.addSiteToBonds s bs ⟨len, sites, (List.range N).map f⟩ =
      .ok ⟨len, sites, (List.range N).map fun b => addTimes s (bs.count b) (f b)⟩ := by
  induction bs generalizing f with
  | nil => simp [Lattice.addSiteToBonds, addTimes]
  | cons b bs ih =>
    have hb : b < N := h b (by simp)
    simp only [Lattice.addSiteToBonds, pyModify_map_range N b f _ hb]
    show Lattice.addSiteToBonds s bs ⟨len, sites, _⟩ = _
    rw [ih _ (fun x hx => h x (by simp [hx]))]
    congr 2
    apply map_range_congr
    intro j _
    by_cases hjb : j = b
    · subst hjb; simp [addTimes]
    · have : ¬ b = j := fun h => hjb h.symm
      simp [this, hjb]

/-- The state of `init_ids` after `n` iterations. -/
def idStage (L n : Nat) : Lattice :=
  { length := L
    sites := (List.range (L * L)).map fun i => if i < n then idealSite L i else { idealSite L i with bonds := [] }
    bonds := (List.range (2 * (L * L))).map fun b => { idealBond L b with sites := (bondSites L b).filter (· < n) } }

theorem addTimes_bond {L n b : Nat} (hn : n < L * L) (hb : b < 2 * (L * L)) :
    addTimes n ([bondAt L n .right, bondAt L n .down, bondAt L n .left, bondAt L n .up].count b)
      { idealBond L b with sites := (bondSites L b).filter (· < n) } =
    { idealBond L b with sites := (bondSites L b).filter (· < n + 1) } := by
  rw [count_bonds hn hb]
  generalize hx : (bondEnds L b).1 = x
  generalize hy : (bondEnds L b).2 = y
  simp only [bondSites, hx, hy]
  rcases Nat.lt_trichotomy x n with h1 | h1 | h1 <;> rcases Nat.lt_trichotomy y n with h2 | h2 | h2 <;>
    rcases Nat.le_total x y with h0 | h0 <;> (try subst h1) <;> (try subst h2) <;>
    first
    | (exfalso; omega)
    | (rw [Nat.min_eq_left h0, Nat.max_eq_right h0]
       simp only [List.filter_cons, List.filter_nil, decide_eq_true_eq]
       simp (disch := omega) only [if_pos, if_neg, addTimes, Bond.addConnectedSite, List.length_cons, List.length_nil,
         List.nil_append, List.cons_append]
       try rfl)
    | (rw [Nat.min_eq_right h0, Nat.max_eq_left h0]
       simp only [List.filter_cons, List.filter_nil, decide_eq_true_eq]
       simp (disch := omega) only [if_pos, if_neg, addTimes, Bond.addConnectedSite, List.length_cons, List.length_nil,
         List.nil_append, List.cons_append]
       try rfl)

theorem initIds_step (L n : Nat) (hn : n < L * L) :
    Lattice.initIdsStep (idStage L n) (n / L, n % L) = .ok (idStage L (n + 1)) := by
  have e : n / L * L + n % L = n := Nat.div_add_mod' n L
  have hmod : (idStage L n).sites = (List.range (L * L)).map
    (fun i => if i < n then idealSite L i else { idealSite L i with bonds := [] }) := rfl
  have hlen : (idStage L n).length = L := rfl
  simp only [Lattice.initIdsStep, hlen, e, bondList_eq (idStage L n) L n rfl hn, pyAssert, hmod,
    pyModify_map_range (L * L) n _ _ hn]
  show Lattice.addSiteToBonds n _ ⟨L, _, (List.range (2 * (L * L))).map fun b => _⟩ = _
  rw [addSiteToBonds_eq]
  · simp only [idStage]
    congr 2
    · apply map_range_congr
      intro i _
      by_cases h : i = n
      · subst h; simp [Site.addConnectingBonds, idealSite]
      · by_cases h2 : i < n
        · simp [h, h2, Nat.lt_succ_of_lt h2]
        · have : ¬ i < n + 1 := by omega
          simp [h, h2, this]
    · apply map_range_congr
      intro b hb
      exact addTimes_bond hn hb
  · intro b hb
    simp only [List.mem_cons, List.not_mem_nil, or_false] at hb
    rcases hb with h | h | h | h <;> rw [h] <;> exact bondAt_lt hn _

theorem initStage_eq_idStage (L : Nat) : initStage L (L * L) = idStage L 0 := by
  simp only [initStage, idStage]
  congr 1
  · apply map_range_congr
    intro i hi
    simp [hi, Site.new, idealSite]
  · apply map_range_congr
    intro b hb
    have : b % (L * L) < L * L := Nat.mod_lt _ (by omega)
    simp [this, Bond.new, idealBond]

theorem idStage_full (L : Nat) : idStage L (L * L) = idealLattice L := by
  simp only [idStage, idealLattice]
  congr 1
  · apply map_range_congr
    intro i hi
    simp [hi]
  · apply map_range_congr
    intro b hb
    have h := bondEnds_lt hb
    have h1 : min (bondEnds L b).1 (bondEnds L b).2 < L * L := by omega
    have h2 : max (bondEnds L b).1 (bondEnds L b).2 < L * L := by omega
    have : (bondSites L b).filter (· < L * L) = bondSites L b := by
      simp only [bondSites, List.filter_cons, h1, h2, decide_true, if_true, List.filter_nil]
    rw [this]; rfl

/-- `Lattice(L)` in closed form. -/
theorem Lattice.new_eq (L : Nat) : Lattice.new L = .ok (idealLattice L) := by
  have key : ∀ n, n ≤ L * L →
      ((List.range n).map fun s => (s / L, s % L)).foldlM Lattice.initIdsStep (idStage L 0) = .ok (idStage L n) := by
    intro n
    induction n with
    | zero => intro _; rfl
    | succ n ih =>
      intro h
      rw [List.range_succ, List.map_append, List.foldlM_append, ih (by omega)]
      show Lattice.initIdsStep (idStage L n) (n / L, n % L) >>= _ = _
      rw [initIds_step L n (by omega)]; rfl
  have : Lattice.new L = (Lattice.gridPairs L).foldlM Lattice.initIdsStep (idStage L 0) := by
    unfold Lattice.new
    rw [initLattice_eq, initStage_eq_idStage]; rfl
  rw [this, gridPairs_eq, key _ (Nat.le_refl _), idStage_full]

end SqPerc
