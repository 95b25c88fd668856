import Verif.Proof.Place
/-
The core invariant is preserved by placing a site.
-/
namespace SqPerc

variable {α : Type} {L k : Nat} {V V' : LV} {P P' : PV} {r : Int}

/-- The sum over the clusters next to `k` that `entropy_subtract` computes. -/
def adjSum (env : Env α) (L : Nat) (V : LV) (P : PV) (k : Nat) : α :=
  (env.set.iter ((siteBonds L k).map V.bg)).foldl (fun h g => env.ar.add h (muLog env L (P.cb g).length)) (env.ar.ofNat 0)

/-- The state after placing site `k`, in terms of the new views. -/
def placedState (env : Env α) (L : Nat) (S : Perc α) (V : LV) (P : PV) (k : Nat) (r : Int) (V' : LV) (P' : PV) : Perc α :=
  { S with
    lat := mkLat L V'
    pool := mkPool (2 * (L * L)) P'
    largestId := if (P'.cb r).length > S.largestSz then r else S.largestId
    largestSz := if (P'.cb r).length > S.largestSz then (P'.cb r).length else S.largestSz
    entropyValue := env.ar.sub (env.ar.add S.entropyValue (adjSum env L V P k)) (muLog env L (P'.cb r).length) }

theorem mem_map_siteBonds {g : Int} : g ∈ (siteBonds L k).map V.bg ↔ Adj L V k g := by
  rw [List.mem_map]
  constructor
  · rintro ⟨b, hb, rfl⟩
    obtain ⟨d, rfl⟩ := mem_siteBonds.1 hb
    exact ⟨d, rfl⟩
  · rintro ⟨d, rfl⟩
    exact ⟨_, mem_siteBonds.2 ⟨d, rfl⟩, rfl⟩

theorem placeSelected_mk (env : Env α) {S : Perc α} (hS : S.lat = mkLat L V)
    (hP : S.pool = mkPool (2 * (L * L)) P) (C : Core L V P) (hk : k < L * L) (hu : V.sg k = -1) :
    ∃ V' P' r, S.placeSelected env k = .ok (placedState env L S V P k r V' P') ∧
      PlaceEffect L k r V V' P P' ∧ RootRule L V P k S.afterWrapping S.wrappingId r := by
  generalize hS1 : ({ S with lat := mkLat L { V with rel := upd V.rel k ⟨0, 0⟩ } } : Perc α) = S1
  have hgm : ∀ g, g ∈ env.set.iter ((siteBonds L k).map V.bg) ↔ Adj L V k g := by
    intro g; rw [env.set.iter_mem, mem_map_siteBonds]
  have e1 : S1.entropySubtract env k = .ok { S1 with entropyValue := env.ar.add S.entropyValue (adjSum env L V P k) } := by
    have hl : S1.lat = mkLat L { V with rel := upd V.rel k ⟨0, 0⟩ } := by rw [← hS1]
    have hp : S1.pool = mkPool (2 * (L * L)) P := by rw [← hS1]; exact hP
    simp only [Perc.entropySubtract]
    rw [show S1.lat.getNeighborBonds k = .ok (siteBonds L k) by rw [hl, getNeighborBonds_mk hk]]
    show (Perc.entropyGids S1 (siteBonds L k) >>= _) = _
    rw [entropyGids_mk hl _ (by
      intro b hb
      obtain ⟨d, rfl⟩ := mem_siteBonds.1 hb
      exact ⟨bondAt_lt hk d, (C.bgr _ (bondAt_lt hk d)).1⟩)]
    show (Perc.entropyLoop env S1 (env.set.iter ((siteBonds L k).map V.bg)) _ >>= _) = _
    rw [entropyLoop_mk env hl hp _ (by
      intro g hg
      have hA := (hgm g).1 hg
      exact ⟨(C.adj_range hk hA).1, (C.adj_range hk hA).2, C.adj_nonempty hk hA⟩)]
    rw [← hS1]; rfl
  obtain ⟨V', P', r, e2, E, hr⟩ := mergeClustersV2_mk (k := k) (L := L) (V := V) (P := P) env
    (S := { S1 with entropyValue := env.ar.add S.entropyValue (adjSum env L V P k) })
    (by rw [← hS1]) (by rw [← hS1]; exact hP) C hk hu
  obtain ⟨r0, r1⟩ := C.adj_range hk E.adj
  have hne : (P'.cb r).length ≠ 0 := by
    obtain ⟨l, _, _, h⟩ := E.cbRoot
    have := List.length_pos_iff.2 (C.adj_nonempty hk E.adj)
    rw [h, List.length_append]; omega
  refine ⟨V', P', r, ?_, E, by rw [← hS1] at hr; exact hr⟩
  simp only [Perc.placeSelected, hS, initRelativeIndex_mk hk]
  show ((mkLat L { V with rel := upd V.rel k ⟨0, 0⟩ }).getNeighborBonds k >>= _) = _
  rw [getNeighborBonds_mk hk]
  show (({ S with lat := mkLat L { V with rel := upd V.rel k ⟨0, 0⟩ } } : Perc α).entropySubtract env k >>= _) = _
  rw [hS1, e1]
  show (Perc.mergeClustersV2 env _ k _ >>= _) = _
  rw [e2]
  simp only [Perc.trackLargest]
  show (((mkPool (2 * (L * L)) P').bondCount r >>= _) >>= _) = _
  rw [bondCount_mk r0 r1]
  show Perc.entropyAdd env (if (P'.cb r).length > S1.largestSz then _ else _) r = _
  have hsz : S1.largestSz = S.largestSz := by rw [← hS1]
  have hid : S1.largestId = S.largestId := by rw [← hS1]
  by_cases hgt : (P'.cb r).length > S1.largestSz
  · rw [if_pos hgt]
    simp only [Perc.entropyAdd, bondCount_mk r0 r1]
    show (if (P'.cb r).length = 0 then _ else _) = _
    rw [if_neg hne]
    simp only [placedState, if_pos (hsz ▸ hgt), mkLat_bondCount]
    rw [← hS1]; rfl
  · rw [if_neg hgt]
    simp only [Perc.entropyAdd, bondCount_mk r0 r1]
    show (if (P'.cb r).length = 0 then _ else _) = _
    rw [if_neg hne]
    simp only [placedState, if_neg (hsz ▸ hgt), mkLat_bondCount]
    rw [← hS1]; rfl

/-! ### Consequences of the effect -/

namespace PlaceEffect

theorem r_range (E : PlaceEffect L k r V V' P P') (C : Core L V P) (hk : k < L * L) : 0 ≤ r ∧ r < (2 * (L * L) : Nat) :=
  C.adj_range hk E.adj

open Classical in
theorem bg_eq (E : PlaceEffect L k r V V' P P') {b : Nat} (hb : b < 2 * (L * L)) :
    V'.bg b = if Adj L V k (V.bg b) then r else V.bg b := by
  by_cases h : Adj L V k (V.bg b)
  · rw [if_pos h, E.bgAdj b hb h]
  · rw [if_neg h, E.bgFar b hb h]

/-- The occupation after the placement. -/
theorem occ_iff (E : PlaceEffect L k r V V' P P') (C : Core L V P) (hk : k < L * L) (s : Nat) :
    VOcc L V' s ↔ VOcc L V s ∨ s = k := by
  have hr := E.r_range C hk
  constructor
  · rintro ⟨hs, h0⟩
    by_cases hsk : s = k
    · exact Or.inr hsk
    · left
      refine ⟨hs, ?_⟩
      by_cases hA : Adj L V k (V.sg s)
      · exact (C.adj_range hk hA).1
      · rwa [E.sgFar s hs hsk hA] at h0
  · rintro (⟨hs, h0⟩ | h)
    · refine ⟨hs, ?_⟩
      by_cases hA : Adj L V k (V.sg s)
      · rw [E.sgAdj s hs hA]; exact hr.1
      · by_cases hsk : s = k
        · rw [hsk, E.sgSelf]; exact hr.1
        · rw [E.sgFar s hs hsk hA]; exact h0
    · rw [h]; exact ⟨hk, by rw [E.sgSelf]; exact hr.1⟩

theorem occ_eq (E : PlaceEffect L k r V V' P P') (C : Core L V P) (hk : k < L * L) :
    VOcc L V' = fun s => VOcc L V s ∨ s = k := by
  funext s; exact propext (E.occ_iff C hk s)

theorem core (E : PlaceEffect L k r V V' P P') (C : Core L V P) (hk : k < L * L) (hu : V.sg k = -1) : Core L V' P' := by
  obtain ⟨r0, r1⟩ := E.r_range C hk
  have hbgl : ∀ b < 2 * (L * L), ∀ g, g ≠ r → (V'.bg b = g ↔ V.bg b = g ∧ ¬ Adj L V k g) := by
    intro b hb g hg
    by_cases hA : Adj L V k (V.bg b)
    · rw [E.bgAdj b hb hA]
      exact ⟨fun h => absurd h.symm hg, fun h => absurd (h.1 ▸ hA) h.2⟩
    · rw [E.bgFar b hb hA]
      exact ⟨fun h => ⟨h, h ▸ hA⟩, fun h => h.1⟩
  have hbgr : ∀ b < 2 * (L * L), (V'.bg b = r ↔ Adj L V k (V.bg b)) := by
    intro b hb
    by_cases hA : Adj L V k (V.bg b)
    · simp [E.bgAdj b hb hA, hA]
    · rw [E.bgFar b hb hA]
      exact ⟨fun h => by rw [h]; exact E.adj, fun h => absurd h hA⟩
  have hsgl : ∀ s < L * L, ∀ g, 0 ≤ g → g ≠ r → (V'.sg s = g ↔ V.sg s = g ∧ ¬ Adj L V k g) := by
    intro s hs g hg0 hg
    by_cases hsk : s = k
    · rw [hsk, E.sgSelf, hu]
      exact ⟨fun h => absurd h.symm hg, fun h => by omega⟩
    by_cases hA : Adj L V k (V.sg s)
    · rw [E.sgAdj s hs hA]
      exact ⟨fun h => absurd h.symm hg, fun h => absurd (h.1 ▸ hA) h.2⟩
    · rw [E.sgFar s hs hsk hA]
      exact ⟨fun h => ⟨h, h ▸ hA⟩, fun h => h.1⟩
  have hsgr : ∀ s < L * L, (V'.sg s = r ↔ s = k ∨ Adj L V k (V.sg s)) := by
    intro s hs
    by_cases hsk : s = k
    · simp [hsk, E.sgSelf]
    by_cases hA : Adj L V k (V.sg s)
    · simp [E.sgAdj s hs hA, hA]
    · rw [E.sgFar s hs hsk hA]
      exact ⟨fun h => Or.inr (by rw [h]; exact E.adj), fun h => h.elim (fun h => absurd h hsk) (fun h => absurd h hA)⟩
  have hbgr' : ∀ b < 2 * (L * L), 0 ≤ V'.bg b ∧ V'.bg b < (2 * (L * L) : Nat) := by
    intro b hb
    by_cases hA : Adj L V k (V.bg b)
    · rw [E.bgAdj b hb hA]; exact ⟨r0, r1⟩
    · rw [E.bgFar b hb hA]; exact C.bgr b hb
  constructor
  case bgr => exact hbgr'
  case sgr =>
    intro s hs
    by_cases hsk : s = k
    · right; rw [hsk, E.sgSelf]; exact ⟨r0, r1⟩
    by_cases hA : Adj L V k (V.sg s)
    · right; rw [E.sgAdj s hs hA]; exact ⟨r0, r1⟩
    · rw [E.sgFar s hs hsk hA]; exact C.sgr s hs
  case memb =>
    intro g g0 g1 b
    by_cases hg : g = r
    · obtain ⟨l, _, hl, e⟩ := E.cbRoot
      rw [hg, e, List.mem_append, List.mem_flatMap, C.memb r r0 r1]
      constructor
      · rintro (⟨h1, h2⟩ | ⟨x, hx, hb⟩)
        · exact ⟨h1, (hbgr b h1).2 (h2 ▸ E.adj)⟩
        · have hA := ((hl x).1 hx).1
          obtain ⟨x0, x1⟩ := C.adj_range hk hA
          rw [C.memb x x0 x1] at hb
          exact ⟨hb.1, (hbgr b hb.1).2 (hb.2.symm ▸ hA)⟩
      · rintro ⟨h1, h2⟩
        rw [hbgr b h1] at h2
        by_cases hbr : V.bg b = r
        · exact Or.inl ⟨h1, hbr⟩
        · obtain ⟨x0, x1⟩ := C.adj_range hk h2
          exact Or.inr ⟨V.bg b, (hl _).2 ⟨h2, hbr⟩, (C.memb _ x0 x1 b).2 ⟨h1, rfl⟩⟩
    · by_cases hA : Adj L V k g
      · rw [E.cbCleared g hA hg]
        simp only [List.not_mem_nil, false_iff]
        rintro ⟨h1, h2⟩
        exact ((hbgl b h1 g hg).1 h2).2 hA
      · rw [E.cbKept g hA, C.memb g g0 g1]
        exact and_congr_right fun h1 => by rw [hbgl b h1 g hg]; simp [hA]
  case mems =>
    intro g g0 g1 s
    by_cases hg : g = r
    · obtain ⟨l, _, hl, e⟩ := E.csRoot
      rw [hg, e, List.mem_append, List.mem_append, List.mem_flatMap, C.mems r r0 r1, List.mem_singleton]
      constructor
      · rintro ((⟨h1, h2⟩ | h) | ⟨x, hx, hb⟩)
        · exact ⟨h1, (hsgr s h1).2 (Or.inr (h2.symm ▸ E.adj))⟩
        · rw [h]; exact ⟨hk, E.sgSelf⟩
        · have hA := ((hl x).1 hx).1
          obtain ⟨x0, x1⟩ := C.adj_range hk hA
          rw [C.mems x x0 x1] at hb
          exact ⟨hb.1, (hsgr s hb.1).2 (Or.inr (hb.2.symm ▸ hA))⟩
      · rintro ⟨h1, h2⟩
        rw [hsgr s h1] at h2
        rcases h2 with h2 | h2
        · exact Or.inl (Or.inr h2)
        by_cases hbr : V.sg s = r
        · exact Or.inl (Or.inl ⟨h1, hbr⟩)
        · obtain ⟨x0, x1⟩ := C.adj_range hk h2
          exact Or.inr ⟨V.sg s, (hl _).2 ⟨h2, hbr⟩, (C.mems _ x0 x1 s).2 ⟨h1, rfl⟩⟩
    · by_cases hA : Adj L V k g
      · rw [E.csCleared g hA hg]
        simp only [List.not_mem_nil, false_iff]
        rintro ⟨h1, h2⟩
        exact ((hsgl s h1 g g0 hg).1 h2).2 hA
      · rw [E.csKept g hA, C.mems g g0 g1]
        exact and_congr_right fun h1 => by rw [hsgl s h1 g g0 hg]; simp [hA]
  case ndb =>
    intro g g0 g1
    by_cases hg : g = r
    · obtain ⟨l, hnd, hl, e⟩ := E.cbRoot
      rw [hg, e, List.nodup_append]
      refine ⟨C.ndb r r0 r1, ?_, ?_⟩
      · rw [List.nodup_flatMap]
        refine ⟨fun x hx => ?_, ?_⟩
        · obtain ⟨x0, x1⟩ := C.adj_range hk ((hl x).1 hx).1
          exact C.ndb x x0 x1
        · refine hnd.imp_of_mem ?_
          intro x y hx hy hxy z hzx hzy
          obtain ⟨x0, x1⟩ := C.adj_range hk ((hl x).1 hx).1
          obtain ⟨y0, y1⟩ := C.adj_range hk ((hl y).1 hy).1
          rw [C.memb x x0 x1] at hzx
          rw [C.memb y y0 y1] at hzy
          exact hxy (hzx.2.symm.trans hzy.2)
      · intro a ha b hb hab
        obtain ⟨x, hx, hbx⟩ := List.mem_flatMap.1 hb
        obtain ⟨x0, x1⟩ := C.adj_range hk ((hl x).1 hx).1
        rw [C.memb r r0 r1] at ha
        rw [C.memb x x0 x1] at hbx
        exact ((hl x).1 hx).2 (by rw [← hbx.2, ← hab, ha.2])
    · by_cases hA : Adj L V k g
      · rw [E.cbCleared g hA hg]; exact List.nodup_nil
      · rw [E.cbKept g hA]; exact C.ndb g g0 g1
  case nds =>
    intro g g0 g1
    by_cases hg : g = r
    · obtain ⟨l, hnd, hl, e⟩ := E.csRoot
      have hknot : ∀ x : Int, 0 ≤ x → x < (2 * (L * L) : Nat) → k ∉ P.cs x := by
        intro x x0 x1 h
        rw [C.mems x x0 x1, hu] at h; omega
      rw [hg, e, List.nodup_append, List.nodup_append]
      refine ⟨⟨C.nds r r0 r1, List.nodup_singleton _, ?_⟩, ?_, ?_⟩
      · intro a ha b hb hab
        rw [List.mem_singleton] at hb
        exact hknot r r0 r1 (by rw [← hb, ← hab]; exact ha)
      · rw [List.nodup_flatMap]
        refine ⟨fun x hx => ?_, ?_⟩
        · obtain ⟨x0, x1⟩ := C.adj_range hk ((hl x).1 hx).1
          exact C.nds x x0 x1
        · refine hnd.imp_of_mem ?_
          intro x y hx hy hxy z hzx hzy
          obtain ⟨x0, x1⟩ := C.adj_range hk ((hl x).1 hx).1
          obtain ⟨y0, y1⟩ := C.adj_range hk ((hl y).1 hy).1
          rw [C.mems x x0 x1] at hzx
          rw [C.mems y y0 y1] at hzy
          exact hxy (hzx.2.symm.trans hzy.2)
      · intro a ha b hb hab
        obtain ⟨x, hx, hbx⟩ := List.mem_flatMap.1 hb
        obtain ⟨x0, x1⟩ := C.adj_range hk ((hl x).1 hx).1
        rcases List.mem_append.1 ha with ha | ha
        · rw [C.mems r r0 r1] at ha
          rw [C.mems x x0 x1] at hbx
          exact ((hl x).1 hx).2 (by rw [← hbx.2, ← hab, ha.2])
        · rw [List.mem_singleton] at ha
          exact hknot x x0 x1 (by rw [← ha, hab]; exact hbx)
    · by_cases hA : Adj L V k g
      · rw [E.csCleared g hA hg]; exact List.nodup_nil
      · rw [E.csKept g hA]; exact C.nds g g0 g1
  case cgok =>
    intro g g0 g1 hne
    by_cases hg : g = r
    · rw [E.cgKept g (Or.inr hg), hg, C.cgok r r0 r1 (C.adj_nonempty hk E.adj)]
    · by_cases hA : Adj L V k g
      · exact absurd (E.cbCleared g hA hg) hne
      · rw [E.cgKept g (Or.inl hA)]
        exact C.cgok g g0 g1 (by rw [← E.cbKept g hA]; exact hne)
  case ciok =>
    intro g g0 g1 hne
    by_cases hg : g = r
    · rw [E.ciKept g (Or.inr hg), hg, C.ciok r r0 r1 (C.adj_nonempty hk E.adj)]
    · by_cases hA : Adj L V k g
      · exact absurd (E.cbCleared g hA hg) hne
      · rw [E.ciKept g (Or.inl hA)]
        exact C.ciok g g0 g1 (by rw [← E.cbKept g hA]; exact hne)
  case inc =>
    intro s d hs
    by_cases hsk : s = k
    · rw [hsk, E.sgSelf, E.bgAdj _ (bondAt_lt hk d) ⟨d, rfl⟩]
    · have hs0 : VOcc L V s := ((E.occ_iff C hk s).1 hs).resolve_right hsk
      have hi := C.inc s d hs0
      by_cases hA : Adj L V k (V.sg s)
      · rw [E.sgAdj s hs.1 hA, E.bgAdj _ (bondAt_lt hs.1 d) (hi ▸ hA)]
      · rw [E.sgFar s hs.1 hsk hA, E.bgFar _ (bondAt_lt hs.1 d) (hi ▸ hA), hi]
  case conn =>
    intro b b' hb hb'
    rw [E.occ_eq C hk, BondConn.insert_iff hk]
    have hadj : ∀ x < 2 * (L * L), (Adj L V k (V.bg x) ↔ ∃ d, BondConn L (VOcc L V) x (bondAt L k d)) := by
      intro x hx
      constructor
      · rintro ⟨d, h⟩; exact ⟨d, (C.conn _ _ hx (bondAt_lt hk d)).1 h.symm⟩
      · rintro ⟨d, h⟩; exact ⟨d, ((C.conn _ _ hx (bondAt_lt hk d)).2 h).symm⟩
    have hadj' : (∃ d, BondConn L (VOcc L V) (bondAt L k d) b') ↔ Adj L V k (V.bg b') := by
      rw [hadj b' hb']
      exact ⟨fun ⟨d, h⟩ => ⟨d, h.symm⟩, fun ⟨d, h⟩ => ⟨d, h.symm⟩⟩
    rw [← hadj b hb, hadj', ← C.conn b b' hb hb']
    by_cases hA : Adj L V k (V.bg b)
    · rw [E.bgAdj b hb hA]
      by_cases hA' : Adj L V k (V.bg b')
      · rw [E.bgAdj b' hb' hA']; simp [hA, hA']
      · rw [E.bgFar b' hb' hA']
        simp only [hA', and_false, or_false]
        constructor
        · intro h; exact absurd (h ▸ E.adj) hA'
        · intro h; exact absurd (h ▸ hA) hA'
    · rw [E.bgFar b hb hA]
      simp only [hA, false_and, or_false]
      by_cases hA' : Adj L V k (V.bg b')
      · rw [E.bgAdj b' hb' hA']
        constructor
        · intro h; exact absurd (h.symm ▸ E.adj) hA
        · intro h; exact absurd (h.symm ▸ hA') hA
      · rw [E.bgFar b' hb' hA']

end PlaceEffect

/-! ### The initial state -/

theorem core_init (L : Nat) : Core L LV.init (PV.init (2 * (L * L))) := by
  have hno : ∀ s, ¬ VOcc L LV.init s := by rintro s ⟨_, h⟩; simp [LV.init] at h
  constructor
  case bgr => intro b hb; simp only [LV.init]; omega
  case sgr => intro s _; exact Or.inl rfl
  case memb =>
    intro g g0 g1 b
    simp only [PV.init, LV.init, List.mem_singleton]
    omega
  case mems =>
    intro g g0 g1 s
    simp only [PV.init, LV.init, List.not_mem_nil, false_iff]
    omega
  case ndb => intro g _ _; exact List.nodup_singleton _
  case nds => intro g _ _; exact List.nodup_nil
  case cgok => intro g _ _ _; rfl
  case ciok => intro g _ _ _; rfl
  case inc => intro s d h; exact absurd h (hno s)
  case conn =>
    intro b b' hb hb'
    constructor
    · intro h
      have : b = b' := by simpa [LV.init] using h
      rw [this]; exact BondConn.refl _
    · intro h
      rcases h.eq_or_occ with h | ⟨s, hs, _⟩
      · rw [h]
      · exact absurd hs (hno s)

end SqPerc
