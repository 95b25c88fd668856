import Verif.Proof.Progress
import Verif.Props.Entropy
/-
Properties C16, C18-C20, C23, C47, C52, C53: wrapping, for arbitrary histories.
-/
namespace SqPerc

variable {α : Type} {L : Nat} {env : Env α} {v : Variant} {S S' S1 S2 : Perc α}

/-- A history used by the examples: L = 3, the first row is completed with detection after each placement, then two more sites. -/
def demoWrapOps : List Op := placeDetect [0, 1, 2, 4, 8] 5

/-! ### C16 -/

/-- C16: if `detect_wrapping()` returns True, a cluster of occupied sites wraps around the torus (there is a closed walk through
occupied sites with non-zero displacement), the reported `wrapping_cluster_id` is the gid of such a cluster, and `L ≥ 3`. -/
theorem C16_detect_sound (h : Reach env v L S) (hd : S.detectWrapping = .ok (S', true)) :
    3 ≤ L ∧ Wraps L S.Occ ∧ ∃ s, S.Occ s ∧ S.lat.getSiteGid s = .ok S'.wrappingId ∧ WrapsAt L S.Occ s := by
  obtain ⟨_, A, M, hA⟩ := h.sim
  obtain ⟨_, _, _, A', hst, M', haw, hV, _⟩ := detectWrapping_steps M hA.inv hd
  have hA' := hA.steps hst
  obtain ⟨s, h1, h2, h3⟩ := hA'.wrap.on haw
  rw [hV] at h1 h2 h3
  rw [M.occ_eq]
  exact ⟨hA'.three haw, h3.wraps, s, h1, by rw [M.siteGid h1.1, h2, M'.wid], h3⟩

example : ∃ S S', Reach demoEnv .l0 3 S ∧ S.detectWrapping = .ok (S', true) := by
  obtain ⟨S, h, hp⟩ := checkOps_reach (env := demoEnv) (v := .l0) (L := 3) (ops := placeInOrder [0, 1, 2] 3)
    (p := fun S => isOk (S.detectWrapping.map fun r => r.2) true) (by decide +kernel)
  rw [isOk_iff] at hp
  cases hd : S.detectWrapping with
  | error e => rw [hd] at hp; cases hp
  | ok r =>
    rw [hd] at hp
    have : r.2 = true := Except.ok.inj hp
    exact ⟨S, r.1, h, by rw [hd, ← this]⟩

/-! ### C18 -/

/-- C18: on lattices of length 1 or 2 `detect_wrapping()` never returns True and changes nothing; `get_pc()` and
`order_param_wrapping()` stay 0.  Yet the fully occupied lattice wraps. -/
theorem C18_small_lattices (hL : L ≤ 2) (h : Reach env v L S) :
    (∀ S' w, S.detectWrapping = .ok (S', w) → w = false ∧ S' = S) ∧
    S.getPc env = env.ar.ofNat 0 ∧ S.orderWrapping env = .ok (env.ar.ofNat 0) ∧
    ((∀ s < L * L, S.Occ s) → Wraps L S.Occ) := by
  obtain ⟨h0, A, M, hA⟩ := h.sim
  have hf := (hA.wrap.flat hL).2
  have hS : S.afterWrapping = false := M.aw.trans hf
  refine ⟨?_, ?_, ?_, fun hall => full_wraps h0 hall⟩
  · intro S' w hd
    rcases detectWrapping_sim M hA.inv hd with ⟨h1, _⟩ | ⟨_, k, hk, ⟨_, rfl, rfl⟩ | ⟨g0, hH, _⟩⟩
    · rw [hf] at h1; cases h1
    · exact ⟨rfl, rfl⟩
    · exact absurd hH ((hA.wrap.flat hL).1.not_hit hL ⟨hA.inv.selLt k hk, g0⟩)
  · rw [Perc.getPc, hS]; rfl
  · rw [Perc.orderWrapping, hS]; rfl

/-- The fully occupied 2 × 2 lattice. -/
example : ∃ S, Reach demoEnv .l0 2 S ∧ (∀ s < 4, S.Occ s) ∧ isOk (S.detectWrapping.map fun r => r.2) false = true := by
  obtain ⟨S, h, hp⟩ := checkOps_reach (env := demoEnv) (v := .l0) (L := 2) (ops := placeDetect [0, 1, 2, 3] 4)
    (p := fun S => S.occB 0 && S.occB 1 && S.occB 2 && S.occB 3 && isOk (S.detectWrapping.map fun r => r.2) false) (by decide +kernel)
  simp only [Bool.and_eq_true, Perc.occB_iff] at hp
  refine ⟨S, h, fun s hs => ?_, hp.2⟩
  have : s = 0 ∨ s = 1 ∨ s = 2 ∨ s = 3 := by omega
  rcases this with rfl | rfl | rfl | rfl
  exacts [hp.1.1.1.1, hp.1.1.1.2, hp.1.1.2, hp.1.2]

/-! ### C19 -/

/-- C19: once `detect_wrapping()` has returned True, it keeps returning True (and changes nothing any more), and the critical values keep
their values, whatever calls other than `reset` follow, including calls that raise. -/
theorem C19_sticky (h : Reach env v L S) (hd : S.detectWrapping = .ok (S1, true)) {ops : List Op}
    (hops : ∀ op ∈ ops, op.isReset = false) (hr : tryOps env v ops S1 = some S2) :
    S2.detectWrapping = .ok (S2, true) ∧ S2.getPc env = S1.getPc env ∧ S2.getSiteCountPc = S1.getSiteCountPc ∧
    S2.getBondCountPc = S1.getBondCountPc ∧ S2.wrappingId = S1.wrappingId := by
  obtain ⟨_, A, M, hA⟩ := h.sim
  obtain ⟨_, _, _, A1, hst, M1, haw, _⟩ := detectWrapping_steps M hA.inv hd
  obtain ⟨A2, hst2, M2⟩ := tryOps_steps M1 (hA.steps hst) hr hops
  obtain ⟨i1, i2, i3, i4, i5, _⟩ := hst2.wid_mono haw
  have e1 : S1.afterWrapping = true := M1.aw.trans haw
  have e2 : S2.afterWrapping = true := M2.aw.trans i1
  refine ⟨?_, ?_, ?_, ?_, ?_⟩
  · rw [Perc.detectWrapping, e2]; rfl
  · rw [Perc.getPc, Perc.getPc, e1, e2, M1.pco, M2.pco, i3, M1.lat, M2.lat]; rfl
  · rw [Perc.getSiteCountPc, Perc.getSiteCountPc, M1.pcs, M2.pcs, i5]
  · rw [Perc.getBondCountPc, Perc.getBondCountPc, M1.pcb, M2.pcb, i4]
  · rw [M1.wid, M2.wid, i2]

/-- Wrapping at the third site, then two more placements: the critical values are those of the third. -/
example : ∃ S, Reach demoEnv .l0 3 S ∧ S.getSiteCountPc = 3 ∧ S.getBondCountPc = 9 ∧ S.pcOccupied = 3 ∧ S.occupiedCount = 5 := by
  obtain ⟨S, h, hp⟩ := checkOps_reach (env := demoEnv) (v := .l0) (L := 3) (ops := demoWrapOps)
    (p := fun S => decide (S.getSiteCountPc = 3 ∧ S.getBondCountPc = 9 ∧ S.pcOccupied = 3 ∧ S.occupiedCount = 5)) (by decide +kernel)
  exact ⟨S, h, by simpa using hp⟩

/-! ### C20 -/

/-- C20: after wrapping was detected, `wrapping_cluster_id` names a non-empty cluster that wraps around the torus, and
`order_param_wrapping()` is its fraction of the bonds. -/
theorem C20_wrapping_cluster (h : Reach env v L S) (ha : S.afterWrapping = true) :
    ∃ (g : Nat) (bs : List Nat), S.wrappingId = g ∧ g < 2 * (L * L) ∧ S.pool.getBonds g = .ok bs ∧ bs ≠ [] ∧
      S.orderWrapping env = .ok (env.ar.div (env.ar.ofNat bs.length) (env.ar.ofNat (2 * (L * L)))) ∧
      ∃ s, S.Occ s ∧ S.lat.getSiteGid s = .ok S.wrappingId ∧ WrapsAt L S.Occ s := by
  obtain ⟨_, A, M, hA⟩ := h.sim
  have haw : A.aw = true := M.aw ▸ ha
  obtain ⟨hg, hpos⟩ := hA.wid_gids haw
  obtain ⟨g, hgl, e⟩ := exists_nat_of_mem_gids hg
  refine ⟨g, A.P.cb g, M.wid.trans e, hgl, M.getBonds (natCast_mem_gids hgl), ?_, ?_, ?_⟩
  · rw [e] at hpos; exact List.length_pos_iff.1 hpos
  · rw [orderWrapping_ok M hA, if_pos haw, e]; rfl
  · obtain ⟨s, h1, h2, h3⟩ := hA.wrap.on haw
    rw [M.occ_eq]
    exact ⟨s, h1, by rw [M.siteGid h1.1, h2, M.wid], h3⟩

/-- C20: until a reset, whatever calls are made (including calls that raise), the sites of the wrapping cluster stay in it (so it keeps the loop found first), and its number of bonds never
decreases. -/
theorem C20_wrapping_cluster_grows (h : Reach env v L S) (ha : S.afterWrapping = true) {ops : List Op}
    (hops : ∀ op ∈ ops, op.isReset = false) (hr : tryOps env v ops S = some S') :
    S'.wrappingId = S.wrappingId ∧ S'.afterWrapping = true ∧
    (∀ s, S.lat.getSiteGid s = .ok S.wrappingId → S'.lat.getSiteGid s = .ok S'.wrappingId) ∧
    ∃ n n', S.pool.bondCount S.wrappingId = .ok n ∧ S'.pool.bondCount S'.wrappingId = .ok n' ∧ n ≤ n' := by
  obtain ⟨_, A, M, hA⟩ := h.sim
  have haw : A.aw = true := M.aw ▸ ha
  obtain ⟨hg, _⟩ := hA.wid_gids haw
  obtain ⟨A', hst, M'⟩ := tryOps_steps M hA hr hops
  obtain ⟨i1, i2, _, _, _, i6⟩ := hst.wid_mono haw
  refine ⟨by rw [M.wid, M'.wid, i2], M'.aw.trans i1, ?_, A.P.len A.wid, A'.P.len A'.wid, by rw [M.wid, M.bondCount hg], ?_, by rw [i2]; exact i6⟩
  · intro s e
    by_cases hs : s < L * L
    · rw [M.siteGid hs, M.wid] at e
      rw [M'.siteGid hs, M'.wid, hst.wid_sites haw (mem_gids.1 hg).1 hs (Except.ok.inj e)]
    · simp only [Lattice.getSiteGid, M.lat, getSite_mk_error (Nat.le_of_not_lt hs)] at e; cases e
  · rw [M'.wid, M'.bondCount (by rw [i2]; exact hg)]

/-- The wrapping cluster of the example history grows from 9 to 12 bonds when the fourth site joins it. -/
example : ∃ S, Reach demoEnv .l0 3 S ∧ S.afterWrapping = true ∧ isOk (S.pool.bondCount S.wrappingId) 12 = true := by
  obtain ⟨S, h, hp⟩ := checkOps_reach (env := demoEnv) (v := .l0) (L := 3) (ops := placeDetect [0, 1, 2, 4, 8] 4)
    (p := fun S => S.afterWrapping && isOk (S.pool.bondCount S.wrappingId) 12) (by decide +kernel)
  exact ⟨S, h, by simpa using hp⟩

/-! ### C23 -/

theorem detect_none (h : Reach env v L S) (hsel : S.selected = none) : S.detectWrapping = .error .typeError := by
  obtain ⟨_, A, M, hA⟩ := h.sim
  have haw : S.afterWrapping = false := by
    cases hb : S.afterWrapping with
    | false => rfl
    | true =>
      exfalso
      have hAs : A.sel = none := M.sel ▸ hsel
      have hAw : A.aw = true := M.aw ▸ hb
      clear hb hsel M h
      induction hA with
      | init _ => cases hAw
      | step _ hs ih =>
        cases hs with
        | place _ _ _ _ => cases hAs
        | tick _ => exact ih hAs hAw
        | detect _ hk _ _ => exact absurd (hk.symm.trans hAs) (by simp)
        | reselect _ _ => cases hAs
  rw [Perc.detectWrapping, haw, hsel]; rfl

/-- C23: on a new object `detect_wrapping()` raises TypeError (`selected_id` is None), and so it does after `reset()` or any other calls
until a site has been selected. -/
theorem C23_fresh_raises : (∀ {draws : Nat → Nat}, Perc.new env L draws = .ok S → S.detectWrapping = .error .typeError) ∧
    (Reach env v L S → S.selected = none → S.detectWrapping = .error .typeError) :=
  ⟨fun h => detect_none (v := .l0) (.new h) (new_sim h).2.1, detect_none⟩

/-- C23: right after the `reset()` of an object that has placed a site, `detect_wrapping()` returns False and changes nothing. -/
theorem C23_after_reset {draws : Nat → Nat} (h : Reach env v L S) (hsel : S.selected ≠ none) (hr : S.reset env v draws = .ok S') :
    S'.detectWrapping = .ok (S', false) := by
  obtain ⟨_, A, M, hA⟩ := h.sim
  have M' := reset_sim M hr
  have hA' : AReach env L (Abs.init env L A.sel) := .init hA.inv.selLt
  obtain ⟨S2, w, hd⟩ := detectWrapping_ok M' hA'.inv (by rw [M'.sel]; show A.sel ≠ none; rw [← M.sel]; exact hsel)
  rw [hd]
  rcases detectWrapping_sim M' hA'.inv hd with ⟨h1, _⟩ | ⟨_, k, hk, ⟨_, rfl, rfl⟩ | ⟨g0, _, _⟩⟩
  · cases h1
  · rfl
  · exact absurd g0 (show ¬ (0 : Int) ≤ -1 by decide)

/-- A reset after a history with placements. -/
example : ∃ S S', Reach demoEnv .l0 3 S ∧ S.selected ≠ none ∧ S.reset demoEnv .l0 (fun _ => 0) = .ok S' := by
  obtain ⟨S, h, hp⟩ := checkOps_reach (env := demoEnv) (v := .l0) (L := 3) (ops := demoWrapOps)
    (p := fun S => decide (S.selected = some 8) && (match S.reset demoEnv .l0 (fun _ => 0) with | .ok _ => true | .error _ => false))
    (by decide +kernel)
  simp only [Bool.and_eq_true, decide_eq_true_eq] at hp
  cases hr : S.reset demoEnv .l0 (fun _ => 0) with
  | error e => rw [hr] at hp; exact absurd hp.2 (by simp)
  | ok S' => exact ⟨S, S', h, by rw [hp.1]; simp, hr⟩

/-! ### C47 -/

theorem testRelLoop_ok {V : LV} (c : Idx) (ns : List Nat) (h : ∀ n ∈ ns, n < L * L) (i : Nat) :
    ∃ r, (mkLat L V).testRelLoop c ns i = .ok r ∧ (r.2 = false → ∀ n ∈ ns, 0 ≤ V.sg n →
      (c.c1 - (V.rel n).c1).natAbs ≠ 1 ∧ (c.c2 - (V.rel n).c2).natAbs ≠ 1 ∧
      ((c.c1 - (V.rel n).c1).natAbs : Int) ≠ L - 1) ∧ (r.2 = false → (∀ n ∈ ns, V.sg n < 0) → r.1 = i) ∧
      (r.2 = true → i < r.1 ∧ ∃ n ∈ ns, 0 ≤ V.sg n) := by
  induction ns generalizing i with
  | nil => exact ⟨(i, false), rfl, by simp, by simp, by simp⟩
  | cons n ns ih =>
    simp only [Lattice.testRelLoop, getSite_mk (h n (by simp))]
    show ∃ r, (if V.sg n < 0 then _ else _) = _ ∧ _
    by_cases hn : V.sg n < 0
    · rw [if_pos hn]
      obtain ⟨r, e, h1, h2, h3⟩ := ih (fun x hx => h x (by simp [hx])) i
      refine ⟨r, e, ?_, ?_, ?_⟩
      · intro hr m hm h0
        rcases List.mem_cons.1 hm with rfl | hm
        · omega
        · exact h1 hr m hm h0
      · intro hr hall
        exact h2 hr fun m hm => hall m (by simp [hm])
      · intro hr
        obtain ⟨a, m, hm, b⟩ := h3 hr
        exact ⟨a, m, by simp [hm], b⟩
    · rw [if_neg hn]
      show ∃ r, (if (((c.c2 - (V.rel n).c2).natAbs : Int) = 1 ∨ ((c.c2 - (V.rel n).c2).natAbs : Int) = (L : Int) - 1) ∨
        (((c.c1 - (V.rel n).c1).natAbs : Int) = 1 ∨ ((c.c1 - (V.rel n).c1).natAbs : Int) = (L : Int) - 1) then _ else _) = _ ∧ _
      split
      · exact ⟨(i + 1, true), rfl, by simp, by simp, fun _ => ⟨by simp, n, by simp, by omega⟩⟩
      · next hc =>
        obtain ⟨r, e, h1, h2, h3⟩ := ih (fun x hx => h x (by simp [hx])) (i + 1)
        refine ⟨r, e, ?_, ?_, ?_⟩
        · intro hr m hm h0
          rcases List.mem_cons.1 hm with rfl | hm
          · exact ⟨by omega, by omega, by omega⟩
          · exact h1 hr m hm h0
        · intro _ hall
          exact absurd (hall n (by simp)) hn
        · intro hr
          obtain ⟨a, m, hm, b⟩ := h3 hr
          exact ⟨by omega, m, by simp [hm], b⟩

theorem forM_ok {β : Type} (l : List β) (f : β → Py Unit) (h : ∀ x ∈ l, f x = .ok ()) : l.forM f = .ok () := by
  induction l with
  | nil => rfl
  | cons a l ih =>
    show (f a >>= fun _ => l.forM f) = _
    rw [h a (by simp)]
    exact ih fun x hx => h x (by simp [hx])

theorem testRelativeIndex_sim {A : Abs α} (M : Sim env L S A) (hA : AReach env L A) : S.lat.testRelativeIndex = .ok () := by
  have C := hA.inv.core
  rw [M.lat, Lattice.testRelativeIndex]
  apply forM_ok
  intro ss hss
  have : ∃ s < L * L, ss = mkSite L A.V s := by
    simp only [mkLat, List.mem_map, List.mem_range] at hss
    obtain ⟨s, hs, rfl⟩ := hss
    exact ⟨s, hs, rfl⟩
  obtain ⟨s, hs, rfl⟩ := this
  simp only [Lattice.testRelSite]
  show (if A.V.sg s < 0 then _ else _) = _
  split
  · rfl
  · next h0 =>
    have ho : VOcc L A.V s := ⟨hs, by omega⟩
    show ((mkLat L A.V).getAllNeighborSites s >>= _) = _
    rw [getAllNeighborSites_mk hs]
    show ((mkLat L A.V).testRelLoop (A.V.rel s) (Dir.all.map (nbr L s)) 0 >>= _) = _
    have hlt : ∀ n ∈ Dir.all.map (nbr L s), n < L * L := by
      intro n hn
      obtain ⟨d, _, rfl⟩ := List.mem_map.1 hn
      exact nbr_lt hs d
    obtain ⟨r, e, h1, h2, _⟩ := testRelLoop_ok (V := A.V) (A.V.rel s) _ hlt 0
    rw [e]
    show (if r.1 > 0 then pyAssert r.2 else _) = _
    cases hr : r.2 with
    | true => split <;> rfl
    | false =>
      have hno : ∀ d, ¬ VOcc L A.V (nbr L s d) := by
        intro d hd
        by_cases hL : 2 ≤ L
        · obtain ⟨d', ho', hu⟩ := hA.wrap.unit hL s ho ⟨d, hd⟩
          obtain ⟨a1, a2, _⟩ := h1 hr _ (List.mem_map_of_mem (Dir.mem_all d')) ho'.2
          unfold UnitStep LV.dr Idx.pr at hu
          simp only [Prod.fst_sub, Prod.snd_sub] at hu
          omega
        · have hL1 : L = 1 := by have := pos_of_lt_sq hs; omega
          subst hL1
          have hs0 : s = 0 := by omega
          have hn0 := nbr_lt hs d
          have e0 : nbr 1 s d = s := by omega
          obtain ⟨_, _, a3⟩ := h1 hr _ (List.mem_map_of_mem (Dir.mem_all d)) hd.2
          rw [e0] at a3
          omega
      rw [h2 hr, if_neg (by omega)]
      · rfl
      · intro n hn
        obtain ⟨d, _, rfl⟩ := List.mem_map.1 hn
        by_contra hc
        exact hno d ⟨nbr_lt hs d, by omega⟩

/-- C47: `test_relative_index()` never raises, on any lattice and after any history. -/
theorem C47_test_relative_index (h : Reach env v L S) : S.lat.testRelativeIndex = .ok () := by
  obtain ⟨_, A, M, hA⟩ := h.sim
  exact testRelativeIndex_sim M hA

/-- C47: what the check is about: for `L ≥ 2` an occupied site with an occupied neighbour has an occupied neighbour whose relative index
differs by exactly one unit in some component. -/
theorem C47_unit_neighbour (hL : 2 ≤ L) (h : Reach env v L S) {s : Nat} (hs : S.Occ s) (hn : ∃ d, S.Occ (nbr L s d)) :
    ∃ d st tt, S.Occ (nbr L s d) ∧ S.lat.getSite s = .ok st ∧ S.lat.getSite (nbr L s d) = .ok tt ∧
      ((st.rel.c1 - tt.rel.c1).natAbs = 1 ∨ (st.rel.c2 - tt.rel.c2).natAbs = 1) := by
  obtain ⟨_, A, M, hA⟩ := h.sim
  rw [M.occ_eq] at hs hn
  obtain ⟨d, ho, hu⟩ := hA.wrap.unit hL s hs hn
  refine ⟨d, mkSite L A.V s, mkSite L A.V (nbr L s d), by rw [M.occ_eq]; exact ho, by rw [M.lat]; exact getSite_mk hs.1,
    by rw [M.lat]; exact getSite_mk ho.1, ?_⟩
  unfold UnitStep LV.dr Idx.pr at hu
  simp only [Prod.fst_sub, Prod.snd_sub] at hu
  show ((A.V.rel s).c1 - (A.V.rel (nbr L s d)).c1).natAbs = 1 ∨ ((A.V.rel s).c2 - (A.V.rel (nbr L s d)).c2).natAbs = 1
  omega

/-- A state with several occupied neighbours.  The check is not trivial: with a wrong relative index it fails. -/
example : ∃ S, Reach demoEnv .l0 3 S ∧ S.Occ 0 ∧ S.Occ (nbr 3 0 .right) ∧ isOk S.lat.testRelativeIndex () = true ∧
    isOk (S.lat.setRelativeIndex 0 ⟨7, 7⟩ >>= Lattice.testRelativeIndex) () = false := by
  obtain ⟨S, h, hp⟩ := checkOps_reach (env := demoEnv) (v := .l0) (L := 3) (ops := placeInOrder [0, 1] 2)
    (p := fun S => S.occB 0 && S.occB 1 && isOk S.lat.testRelativeIndex () &&
      !isOk (S.lat.setRelativeIndex 0 ⟨7, 7⟩ >>= Lattice.testRelativeIndex) ()) (by decide +kernel)
  simp only [Bool.and_eq_true, Bool.not_eq_true', Perc.occB_iff] at hp
  exact ⟨S, h, hp.1.1.1, hp.1.1.2, hp.1.2, hp.2⟩

/-! ### C52 -/

/-- C52: the wrapping cluster has at most as many bonds as the largest cluster, which has at most `2 L²`. -/
theorem C52_wrapping_le_largest (h : Reach env v L S) : S.largestCluster ≤ 2 * (L * L) ∧
    (S.afterWrapping = true → ∃ n, S.pool.bondCount S.wrappingId = .ok n ∧ 0 < n ∧ n ≤ S.largestCluster) := by
  obtain ⟨_, A, M, hA⟩ := h.sim
  have hl := hA.largest
  have hle : A.lsz ≤ 2 * (L * L) := by
    rcases Nat.eq_zero_or_pos A.count with h0 | h0
    · rw [(hl.zero h0).1]; exact Nat.zero_le _
    · obtain ⟨h1, h2, _⟩ := hl.pos h0
      rw [← h2]; exact hA.inv.core.len_le h1
  refine ⟨by rw [Perc.largestCluster, M.lsz]; exact hle, fun ha => ?_⟩
  have haw : A.aw = true := M.aw ▸ ha
  obtain ⟨hg, hpos⟩ := hA.wid_gids haw
  refine ⟨A.P.len A.wid, by rw [M.wid, M.bondCount hg], hpos, ?_⟩
  have hc : 0 < A.count := by
    obtain ⟨s, h1, _⟩ := hA.wrap.on haw
    by_contra h0
    have := hA.count
    have h0' : A.count = 0 := by omega
    unfold CountInv at this
    rw [h0'] at this
    classical
    unfold occCount at this
    have hm : s ∈ (Finset.range (L * L)).filter (VOcc L A.V) := by
      rw [Finset.mem_filter, Finset.mem_range]; exact ⟨h1.1, h1⟩
    have hpos := Finset.card_pos.2 ⟨s, hm⟩
    have e : ((Finset.range (L * L)).filter (VOcc L A.V)).card = 0 := by convert this.symm
    omega
  have h1 := hl.le _ hg
  obtain ⟨_, _, h3⟩ := hl.pos hc
  rw [Perc.largestCluster, M.lsz]
  omega

/-- C52: in exact arithmetic `0 ≤ order_param_wrapping() ≤ order_param_largest_clstr() ≤ 1`, and `order_param_wrapping()` never raises. -/
theorem C52_order_parameters {so : SetOrder} {S : Perc ℝ} (h : Reach (realEnv so) v L S) :
    ∃ p, S.orderWrapping (realEnv so) = .ok p ∧ 0 ≤ p ∧ p ≤ S.orderLargest (realEnv so) ∧ S.orderLargest (realEnv so) ≤ 1 := by
  obtain ⟨h1, h2⟩ := C52_wrapping_le_largest h
  obtain ⟨_, A, M, hA⟩ := h.sim
  have hB : S.lat.bondCount = 2 * (L * L) := by rw [M.lat, mkLat_bondCount]
  have e1 : S.orderLargest (realEnv so) = (S.largestCluster : ℝ) / ((2 * (L * L) : Nat) : ℝ) := by
    rw [Perc.orderLargest, hB]; rfl
  have hle : S.orderLargest (realEnv so) ≤ 1 := by
    rw [e1]; exact div_le_one_of_le₀ (by exact_mod_cast h1) (by positivity)
  rw [orderWrapping_ok M hA]
  by_cases ha : A.aw = true
  · obtain ⟨n, e, _, hn⟩ := h2 (M.aw.trans ha)
    rw [M.wid, M.bondCount (hA.wid_gids ha).1] at e
    have en := Except.ok.inj e
    refine ⟨(n : ℝ) / ((2 * (L * L) : Nat) : ℝ), by rw [if_pos ha, en]; rfl, by positivity, ?_, hle⟩
    rw [e1]
    have : (n : ℝ) ≤ S.largestCluster := by exact_mod_cast hn
    gcongr
  · refine ⟨((0 : Nat) : ℝ), by rw [if_neg ha]; rfl, by simp, ?_, hle⟩
    rw [e1, Nat.cast_zero]; positivity

/-- Both order parameters differ: another cluster than the wrapping one is never larger, but the largest may exist before wrapping. -/
example : ∃ S, Reach demoEnv .l0 3 S ∧ S.afterWrapping = true ∧ S.largestCluster = 12 ∧ isOk (S.pool.bondCount S.wrappingId) 12 = true := by
  obtain ⟨S, h, hp⟩ := checkOps_reach (env := demoEnv) (v := .l0) (L := 3) (ops := placeDetect [0, 1, 2, 4] 4)
    (p := fun S => S.afterWrapping && decide (S.largestCluster = 12) && isOk (S.pool.bondCount S.wrappingId) 12) (by decide +kernel)
  simp only [Bool.and_eq_true, decide_eq_true_eq] at hp
  exact ⟨S, h, hp.1.1, hp.1.2, hp.2⟩

/-! ### C53 -/

/-- C53: two occupied sites of one cluster: the difference of their relative indices is the displacement of a walk through occupied sites
from one to the other, so it is congruent modulo `L` to the difference of their (row, col) indices. -/
theorem C53_relative_index_lift (hL : 3 ≤ L) (h : Reach env v L S) {s t : Nat} {st tt : Site} (hs : S.lat.getSite s = .ok st)
    (ht : S.lat.getSite t = .ok tt) (ho : 0 ≤ st.gid) (hg : st.gid = tt.gid) :
    Walk L S.Occ s t (tt.rel.c1 - st.rel.c1, tt.rel.c2 - st.rel.c2) ∧
    (L : Int) ∣ (tt.rel.c1 - st.rel.c1) - (tt.index.c1 - st.index.c1) ∧
    (L : Int) ∣ (tt.rel.c2 - st.rel.c2) - (tt.index.c2 - st.index.c2) := by
  obtain ⟨_, A, M, hA⟩ := h.sim
  rw [M.lat] at hs ht
  obtain ⟨hsl, rfl⟩ := getSite_ok hs
  obtain ⟨htl, rfl⟩ := getSite_ok ht
  have hso : VOcc L A.V s := ⟨hsl, ho⟩
  have hto : VOcc L A.V t := ⟨htl, by have : A.V.sg s = A.V.sg t := hg; rw [← this]; exact ho⟩
  have hw := hA.wrap.lift hL s t hso hto hg
  rw [M.occ_eq]
  exact ⟨hw, walk_mod vocc_lt hw⟩

/-- Two sites of the wrapping row of the example history whose relative indices differ by -1 while their columns differ by 2. -/
example : ∃ S st tt, Reach demoEnv .l0 3 S ∧ S.lat.getSite 0 = .ok st ∧ S.lat.getSite 2 = .ok tt ∧ 0 ≤ st.gid ∧ st.gid = tt.gid ∧
    tt.rel.c2 - st.rel.c2 = -1 := by
  obtain ⟨S, h, hp⟩ := checkOps_reach (env := demoEnv) (v := .l0) (L := 3) (ops := demoWrapOps)
    (p := fun S => match S.lat.getSite 0, S.lat.getSite 2 with
      | .ok st, .ok tt => decide (0 ≤ st.gid ∧ st.gid = tt.gid ∧ tt.rel.c2 - st.rel.c2 = -1)
      | _, _ => false) (by decide +kernel)
  split at hp
  · next st tt e1 e2 => exact ⟨S, st, tt, h, e1, e2, by simpa using hp⟩
  · cases hp

end SqPerc
