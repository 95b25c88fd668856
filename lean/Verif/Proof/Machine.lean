import Verif.Proof.CoreStep
import Verif.Model.History
/-
An abstract machine: the part of the state the cluster invariants talk about, in terms of views.  Every history of calls is
simulated by it.
-/
namespace SqPerc

set_option linter.unusedTactic false

/-- State of the abstract machine. -/
structure Abs (α : Type) where
  V : LV
  P : PV
  count : Nat
  lsz : Nat
  lid : Int
  ent : α
  aw : Bool
  wid : Int
  pco : Nat
  pcb : Option Nat
  pcs : Option Nat
  sel : Option Nat

variable {α : Type} {L : Nat}

/-- `S` is represented by `A`. -/
structure Sim (env : Env α) (L : Nat) (S : Perc α) (A : Abs α) : Prop where
  lat : S.lat = mkLat L A.V
  pool : S.pool = mkPool (2 * (L * L)) A.P
  count : S.occupiedCount = A.count
  lsz : S.largestSz = A.lsz
  lid : S.largestId = A.lid
  ent : S.entropyValue = A.ent
  aw : S.afterWrapping = A.aw
  wid : S.wrappingId = A.wid
  pco : S.pcOccupied = A.pco
  pcb : S.pcBonds = A.pcb
  pcs : S.pcSites = A.pcs
  sel : S.selected = A.sel
  me : S.maxEntropy = env.ar.log (env.ar.ofNat (2 * (L * L)))
  cc : S.clusterCount = 2 * (L * L)

/-- The initial state, with a given selected site. -/
def Abs.init (env : Env α) (L : Nat) (sel : Option Nat) : Abs α :=
  { V := LV.init, P := PV.init (2 * (L * L)), count := 0, lsz := 0, lid := -1
    ent := env.ar.log (env.ar.ofNat (2 * (L * L))), aw := false, wid := -1, pco := 0, pcb := none, pcs := none, sel := sel }

/-- The state after placing site `k`. -/
def Abs.placed (env : Env α) (L : Nat) (A : Abs α) (k : Nat) (r : Int) (V' : LV) (P' : PV) : Abs α :=
  { A with
    V := V', P := P', count := A.count + 1, sel := some k
    lid := if (P'.cb r).length > A.lsz then r else A.lid
    lsz := if (P'.cb r).length > A.lsz then (P'.cb r).length else A.lsz
    ent := env.ar.sub (env.ar.add A.ent (adjSum env L A.V A.P k)) (muLog env L (P'.cb r).length) }

/-- A neighbour of `k` in the same cluster has a relative index more than a unit away. -/
def Hit (L : Nat) (V : LV) (k : Nat) : Prop :=
  ∃ d, V.sg (nbr L k d) = V.sg k ∧
    (1 < ((V.rel k).c1 - (V.rel (nbr L k d)).c1).natAbs ∨ 1 < ((V.rel k).c2 - (V.rel (nbr L k d)).c2).natAbs)

/-- The state after `detect_wrapping` finds a wrap at `k`. -/
def Abs.detected (A : Abs α) (k : Nat) : Abs α :=
  { A with
    aw := true, wid := A.V.sg k, pco := A.count
    pcb := some (A.P.cb (A.V.sg k)).length
    pcs := some (A.P.cs (A.V.sg k)).length }

/-- Two lattice views that differ only in the neighbour counters. -/
def SameV (V V' : LV) : Prop := V'.sg = V.sg ∧ V'.rel = V.rel ∧ V'.bg = V.bg

/-- Steps of the abstract machine other than reset. -/
inductive AStep (env : Env α) (L : Nat) : Abs α → Abs α → Prop
  | place {A : Abs α} {k : Nat} {r : Int} {V' : LV} {P' : PV} : k < L * L → A.V.sg k = -1 → PlaceEffect L k r A.V V' A.P P' →
      RootRule L A.V A.P k A.aw A.wid r → AStep env L A (A.placed env L k r V' P')
  | tick {A : Abs α} {V' : LV} : SameV A.V V' → AStep env L A { A with V := V' }
  | detect {A : Abs α} {k : Nat} : A.aw = false → A.sel = some k → 0 ≤ A.V.sg k → Hit L A.V k → AStep env L A (A.detected k)
  | reselect {A : Abs α} {k : Nat} : k < L * L → 0 ≤ A.V.sg k → AStep env L A { A with sel := some k }

/-- Any number of steps. -/
abbrev ASteps (env : Env α) (L : Nat) : Abs α → Abs α → Prop := Relation.ReflTransGen (AStep env L)

/-- Basic invariant of the abstract machine. -/
structure AInv (L : Nat) (A : Abs α) : Prop where
  core : Core L A.V A.P
  selLt : ∀ k, A.sel = some k → k < L * L
  selRel : ∀ k, A.sel = some k → 0 ≤ A.V.sg k ∨ ∀ s < L * L, A.V.rel s = Idx.zero

theorem SameV.refl (V : LV) : SameV V V := ⟨rfl, rfl, rfl⟩

theorem SameV.trans {V V' V'' : LV} (h : SameV V V') (h' : SameV V' V'') : SameV V V'' :=
  ⟨h'.1.trans h.1, h'.2.1.trans h.2.1, h'.2.2.trans h.2.2⟩

theorem SameV.vocc {V V' : LV} (h : SameV V V') : VOcc L V' = VOcc L V := by
  funext s; simp only [VOcc, h.1]

theorem Core.same {V V' : LV} {P : PV} (C : Core L V P) (h : SameV V V') : Core L V' P := by
  obtain ⟨h1, h2, h3⟩ := h
  have ho := SameV.vocc (L := L) ⟨h1, h2, h3⟩
  constructor
  · rw [h3]; exact C.bgr
  · rw [h1]; exact C.sgr
  · rw [h3]; exact C.memb
  · rw [h1]; exact C.mems
  · exact C.ndb
  · exact C.nds
  · exact C.cgok
  · exact C.ciok
  · rw [h1, h3, ho]; exact C.inc
  · rw [h3, ho]; exact C.conn

theorem AInv.step {env : Env α} {A A' : Abs α} (I : AInv L A) (h : AStep env L A A') : AInv L A' := by
  cases h with
  | @place k r V' P' hk hu E _ =>
    refine ⟨E.core I.core hk hu, ?_, ?_⟩
    · rintro k' h; cases h; exact hk
    · rintro k' h; cases h; left
      show 0 ≤ V'.sg k
      rw [E.sgSelf]; exact (E.r_range I.core hk).1
  | tick h =>
    refine ⟨I.core.same h, I.selLt, ?_⟩
    intro k hk
    show 0 ≤ _ ∨ ∀ s < L * L, _ = _
    rw [h.1, h.2.1]; exact I.selRel k hk
  | detect _ _ _ _ => exact ⟨I.core, I.selLt, I.selRel⟩
  | reselect hk h0 => exact ⟨I.core, fun k' h => (by cases h; exact hk), fun k' h => (by cases h; exact Or.inl h0)⟩

theorem AInv.steps {env : Env α} {A A' : Abs α} (I : AInv L A) (h : ASteps env L A A') : AInv L A' := by
  induction h with
  | refl => exact I
  | tail _ h ih => exact ih.step h

theorem AInv.init (env : Env α) (L : Nat) (sel : Option Nat) (h : ∀ k, sel = some k → k < L * L) : AInv L (Abs.init env L sel) :=
  ⟨core_init L, h, fun _ _ => Or.inr fun _ _ => rfl⟩

/-! ### Neighbour queries -/

theorem allNeighborLoop_mk {V : LV} {k : Nat} (hk : k < L * L) (ds : List Dir) :
    (mkLat L V).allNeighborLoop k (ds.map (bondAt L k)) = .ok (ds.map (nbr L k)) := by
  induction ds with
  | nil => rfl
  | cons d ds ih =>
    simp only [List.map_cons, Lattice.allNeighborLoop, getNeighborSites_mk (bondAt_lt hk d)]
    show (pyRemove (bondSites L (bondAt L k d)) k >>= _) = _
    rw [remove_bondSites hk d]
    show ((mkLat L V).allNeighborLoop k (ds.map (bondAt L k)) >>= _) = _
    rw [ih]; rfl

theorem getAllNeighborSites_mk {V : LV} {k : Nat} (hk : k < L * L) :
    (mkLat L V).getAllNeighborSites k = .ok (Dir.all.map (nbr L k)) := by
  simp only [Lattice.getAllNeighborSites, getNeighborBonds_mk hk, siteBonds_eq]
  show ((mkLat L V).allNeighborLoop k _ >>= _) = _
  rw [allNeighborLoop_mk hk]; rfl

theorem wrappingTestLoop_mk {V : LV} {k : Nat} (hk : k < L * L) (g : Int) (ds : List Dir) :
    (mkLat L V).wrappingTestLoop k g (ds.map (bondAt L k)) =
      .ok ((ds.map (nbr L k)).filter fun n => decide (V.sg n = g)) := by
  induction ds with
  | nil => rfl
  | cons d ds ih =>
    simp only [List.map_cons, Lattice.wrappingTestLoop, otherEnd_mk hk d]
    show ((mkLat L V).getSiteGid (nbr L k d) >>= _) = _
    rw [getSiteGid_mk (nbr_lt hk d)]
    show ((mkLat L V).wrappingTestLoop k g (ds.map (bondAt L k)) >>= _) = _
    rw [ih, List.filter_cons]
    show Except.ok _ = _
    by_cases h : V.sg (nbr L k d) = g <;> simp [h]

theorem getSitesForWrappingTest_mk {V : LV} {k : Nat} (hk : k < L * L) :
    (mkLat L V).getSitesForWrappingTest k = .ok ((Dir.all.map (nbr L k)).filter fun n => decide (V.sg n = V.sg k)) := by
  simp only [Lattice.getSitesForWrappingTest, getSite_mk hk]
  show (mkLat L V).wrappingTestLoop k (V.sg k) (siteBonds L k) = _
  rw [siteBonds_eq, wrappingTestLoop_mk hk]

theorem wrapScan_mk {V : LV} (c : Idx) (ns : List Nat) (h : ∀ n ∈ ns, n < L * L) :
    ∃ b, Perc.wrapScan (mkLat L V) c ns = .ok b ∧
      (b = true ↔ ∃ n ∈ ns, 1 < (c.c1 - (V.rel n).c1).natAbs ∨ 1 < (c.c2 - (V.rel n).c2).natAbs) := by
  induction ns with
  | nil => exact ⟨false, rfl, by simp⟩
  | cons n ns ih =>
    simp only [Perc.wrapScan, getSite_mk (h n (by simp))]
    show ∃ b, (if (c.c1 - (V.rel n).c1).natAbs > 1 ∨ (c.c2 - (V.rel n).c2).natAbs > 1 then _ else _) = _ ∧ _
    by_cases hc : (c.c1 - (V.rel n).c1).natAbs > 1 ∨ (c.c2 - (V.rel n).c2).natAbs > 1
    · rw [if_pos hc]
      exact ⟨true, rfl, by simpa using Or.inl hc⟩
    · rw [if_neg hc]
      obtain ⟨b, e, hb⟩ := ih (fun x hx => h x (by simp [hx]))
      refine ⟨b, e, hb.trans ?_⟩
      simp only [List.mem_cons, exists_eq_or_imp]
      exact (or_iff_right hc).symm

theorem Dir.mem_all (d : Dir) : d ∈ Dir.all := by cases d <;> simp [Dir.all]

/-- The model's `detect_wrapping` in terms of the view. -/
theorem detectWrapping_sim {env : Env α} {S : Perc α} {A : Abs α} (M : Sim env L S A) (I : AInv L A) {S' : Perc α} {w : Bool}
    (h : S.detectWrapping = .ok (S', w)) :
    (A.aw = true ∧ S' = S ∧ w = true) ∨
    (A.aw = false ∧ ∃ k, A.sel = some k ∧
      ((¬ Hit L A.V k ∧ S' = S ∧ w = false) ∨
       (0 ≤ A.V.sg k ∧ Hit L A.V k ∧ w = true ∧ S' = { S with
          afterWrapping := true, wrappingId := A.V.sg k, pcOccupied := S.occupiedCount
          pcBonds := some (A.P.cb (A.V.sg k)).length, pcSites := some (A.P.cs (A.V.sg k)).length }))) := by
  simp only [Perc.detectWrapping] at h
  by_cases haw : A.aw = true
  · rw [M.aw, if_pos haw] at h
    injection h with h; injection h with h1 h2
    exact Or.inl ⟨haw, h1.symm, h2.symm⟩
  · rw [M.aw, if_neg haw, M.sel] at h
    have hf : A.aw = false := by simpa using haw
    right
    refine ⟨hf, ?_⟩
    cases hsel : A.sel with
    | none => rw [hsel] at h; cases h
    | some k =>
      refine ⟨k, rfl, ?_⟩
      rw [hsel] at h
      have hk := I.selLt k hsel
      simp only [M.lat, getSitesForWrappingTest_mk hk, getSite_mk hk] at h
      obtain ⟨b, e, hb⟩ := wrapScan_mk (L := L) (V := A.V) (A.V.rel k)
        ((Dir.all.map (nbr L k)).filter fun n => decide (A.V.sg n = A.V.sg k)) (by
          intro n hn
          rw [List.mem_filter] at hn
          obtain ⟨d, _, rfl⟩ := List.mem_map.1 hn.1
          exact nbr_lt hk d)
      have hit : b = true ↔ Hit L A.V k := by
        rw [hb]
        constructor
        · rintro ⟨n, hn, h⟩
          rw [List.mem_filter] at hn
          obtain ⟨d, _, rfl⟩ := List.mem_map.1 hn.1
          exact ⟨d, by simpa using hn.2, h⟩
        · rintro ⟨d, h1, h2⟩
          exact ⟨nbr L k d, List.mem_filter.2 ⟨List.mem_map_of_mem (Dir.mem_all d), by simpa using h1⟩, h2⟩
      replace h : (Perc.wrapScan (mkLat L A.V) (A.V.rel k) _ >>= _) = _ := h
      rw [e] at h
      replace h : (if b = true then _ else _) = _ := h
      by_cases hbt : b = true
      · rw [if_pos hbt] at h
        have hH := hit.1 hbt
        have hk0 : 0 ≤ A.V.sg k := by
          rcases I.selRel k hsel with h | h
          · exact h
          · exfalso
            obtain ⟨d, _, h2⟩ := hH
            rw [h k hk, h _ (nbr_lt hk d)] at h2
            simp [Idx.zero] at h2
        obtain ⟨_, g1⟩ := (I.core.sgr k hk).resolve_left (by omega)
        right
        refine ⟨hk0, hH, ?_⟩
        have e1 : (mkSite L A.V k).gid = A.V.sg k := rfl
        rw [M.pool, e1, bondCount_mk hk0 g1, siteCount_mk hk0 g1] at h
        injection h with h; injection h with h1 h2
        refine ⟨h2.symm, ?_⟩
        rw [← h1]; simp only [M.pool, M.lat, M.sel, hsel]
      · rw [if_neg hbt] at h
        left
        injection h with h; injection h with h1 h2
        exact ⟨fun h => hbt (hit.2 h), h1.symm, h2.symm⟩

/-! ### Simulation of the individual calls -/

/-- Changing only fields the abstract machine does not see. -/
theorem Sim.of_eq {env : Env α} {S S' : Perc α} {A : Abs α} (M : Sim env L S A) {V' : LV} (h1 : S'.lat = mkLat L V')
    (h2 : S'.pool = S.pool) (h3 : S'.occupiedCount = S.occupiedCount) (h4 : S'.largestSz = S.largestSz)
    (h5 : S'.largestId = S.largestId) (h6 : S'.entropyValue = S.entropyValue) (h7 : S'.afterWrapping = S.afterWrapping)
    (h8 : S'.wrappingId = S.wrappingId) (h9 : S'.pcOccupied = S.pcOccupied) (h10 : S'.pcBonds = S.pcBonds)
    (h11 : S'.pcSites = S.pcSites) (h12 : S'.selected = S.selected) (h13 : S'.maxEntropy = S.maxEntropy)
    (h14 : S'.clusterCount = S.clusterCount) : Sim env L S' { A with V := V' } :=
  ⟨h1, h2.trans M.pool, h3.trans M.count, h4.trans M.lsz, h5.trans M.lid, h6.trans M.ent, h7.trans M.aw, h8.trans M.wid,
   h9.trans M.pco, h10.trans M.pcb, h11.trans M.pcs, h12.trans M.sel, h13.trans M.me, h14.trans M.cc⟩

/-- What a successful selection of `k` leaves unchanged. -/
structure SelEffect (S S' : Perc α) (V' : LV) (L : Nat) : Prop where
  lat : S'.lat = mkLat L V'
  pool : S'.pool = S.pool
  lsz : S'.largestSz = S.largestSz
  lid : S'.largestId = S.largestId
  ent : S'.entropyValue = S.entropyValue
  aw : S'.afterWrapping = S.afterWrapping
  wid : S'.wrappingId = S.wrappingId
  pco : S'.pcOccupied = S.pcOccupied
  pcb : S'.pcBonds = S.pcBonds
  pcs : S'.pcSites = S.pcSites
  me : S'.maxEntropy = S.maxEntropy
  cc : S'.clusterCount = S.clusterCount
  maxIter : S'.maxIter = S.maxIter
  firstRun : S'.firstRun = S.firstRun
  occProb : S'.occProbList = S.occProbList
  entList : S'.entropyList = S.entropyList
  owList : S'.orderWrapList = S.orderWrapList
  olList : S'.orderLargestList = S.orderLargestList
  custom : S'.modeCustom = S.modeCustom
  doSh : S'.doShuffle = S.doShuffle
  rev : S'.revIds = S.revIds

/-- Result of a `select_site` call. -/
def SelResult (L : Nat) (V : LV) (S S' : Perc α) (flag : SelectionState) : Prop :=
  ∃ V', SameV V V' ∧ SelEffect S S' V' L ∧
    ((flag = .success ∧ S'.occupiedCount = S.occupiedCount + 1 ∧ ∃ k, k < L * L ∧ V.sg k = -1 ∧ S'.selected = some k) ∨
     (flag ≠ .success ∧ S'.occupiedCount = S.occupiedCount ∧ S'.selected = S.selected))

theorem finishSelect_sim {S S' : Perc α} {V : LV} {k : Nat} {flag : SelectionState} (hS : S.lat = mkLat L V)
    (h : S.finishSelect k = .ok (S', flag)) :
    flag = .success ∧ k < L * L ∧ V.sg k = -1 ∧ S' = { S with selected := some k, occupiedCount := S.occupiedCount + 1 } := by
  simp only [Perc.finishSelect, hS] at h
  by_cases hk : k < L * L
  · rw [getSite_mk hk] at h
    by_cases hg : V.sg k = -1
    · replace h : (pyAssert (decide (V.sg k = -1)) >>= _) = _ := h
      rw [hg] at h
      injection h with h; injection h with h1 h2
      exact ⟨h2.symm, hk, hg, by rw [← h1]; simp only [hS]⟩
    · replace h : (pyAssert (decide (V.sg k = -1)) >>= _) = _ := h
      rw [show decide (V.sg k = -1) = false by simpa using hg] at h
      cases h
  · rw [getSite_mk_error (by omega)] at h; cases h

theorem getSite_ok {V : LV} {k : Nat} {s : Site} (h : (mkLat L V).getSite k = .ok s) : k < L * L ∧ s = mkSite L V k := by
  by_cases hk : k < L * L
  · rw [getSite_mk hk] at h; injection h with h; exact ⟨hk, h.symm⟩
  · rw [getSite_mk_error (by omega)] at h; cases h

theorem selectL0_sim {S S' : Perc α} {V : LV} {flag : SelectionState} (hS : S.lat = mkLat L V)
    (h : S.selectL0 = .ok (S', flag)) : SelResult L V S S' flag := by
  simp only [Perc.selectL0] at h
  split at h
  · injection h with h; injection h with h1 h2
    subst h1; subst h2
    exact ⟨V, SameV.refl V, ⟨hS, rfl, rfl, rfl, rfl, rfl, rfl, rfl, rfl, rfl, rfl, rfl, rfl, rfl, rfl, rfl, rfl, rfl, rfl, rfl, rfl⟩,
      Or.inr ⟨by simp, rfl, rfl⟩⟩
  · cases hg : pyGet S.siteIds S.currentIdx with
    | error e => rw [hg] at h; cases h
    | ok k =>
      rw [hg] at h
      replace h : (S.lat.getSite k >>= _) = _ := h
      rw [hS] at h
      by_cases hk : k < L * L
      · rw [getSite_mk hk] at h
        replace h : (pyAssert (decide (V.sg k = -1)) >>= _) = _ := h
        by_cases hgk : V.sg k = -1
        · rw [show decide (V.sg k = -1) = true by simpa using hgk] at h
          injection h with h; injection h with h1 h2
          subst h1; subst h2
          exact ⟨V, SameV.refl V, ⟨rfl, rfl, rfl, rfl, rfl, rfl, rfl, rfl, rfl, rfl, rfl, rfl, rfl, rfl, rfl, rfl, rfl, rfl, rfl, rfl, rfl⟩,
            Or.inl ⟨rfl, rfl, k, hk, hgk, rfl⟩⟩
        · rw [show decide (V.sg k = -1) = false by simpa using hgk] at h
          cases h
      · rw [getSite_mk_error (by omega)] at h; cases h

end SqPerc
