import Verif.Proof.Progress
/-
Histories with detection after every placement.
-/
namespace SqPerc

variable {α : Type} {L : Nat} {env : Env α} {v : Variant}

theorem Consistent.not_hit {V : LV} {k : Nat} (h : Consistent L V) (hk : VOcc L V k) : ¬ Hit L V k := by
  rw [not_hit_iff]
  intro d hd
  rw [h k d hk ⟨nbr_lt hk.1 d, by rw [hd]; exact hk.2⟩]
  exact d.vec_le

theorem Core.siteComp_eq {V : LV} {P : PV} (C : Core L V P) {k : Nat} (hk : VOcc L V k) :
    siteComp L (VOcc L V) k = (P.cs (V.sg k)).toFinset := by
  classical
  have hg := (C.sgr k hk.1).resolve_left (by have := hk.2; omega)
  ext t
  unfold siteComp
  rw [List.mem_toFinset, C.mems _ hg.1 hg.2, Finset.mem_filter, Finset.mem_range]
  refine and_congr_right fun ht => ?_
  constructor
  · rintro ⟨ho, hc⟩
    rw [siteConn_iff vocc_lt hk ho .right .right, ← C.conn _ _ (bondAt_lt hk.1 _) (bondAt_lt ht _), C.inc _ _ hk, C.inc _ _ ho] at hc
    exact hc.symm
  · intro h
    have ho : VOcc L V t := ⟨ht, by rw [h]; exact hk.2⟩
    refine ⟨ho, ?_⟩
    rw [siteConn_iff vocc_lt hk ho .right .right, ← C.conn _ _ (bondAt_lt hk.1 _) (bondAt_lt ht _), C.inc _ _ hk, C.inc _ _ ho, h]

theorem Core.siteComp_card {V : LV} {P : PV} (C : Core L V P) {k : Nat} (hk : VOcc L V k) :
    (siteComp L (VOcc L V) k).card = (P.cs (V.sg k)).length := by
  have hg := (C.sgr k hk.1).resolve_left (by have := hk.2; omega)
  rw [C.siteComp_eq hk, List.toFinset_card_of_nodup (C.nds _ hg.1 hg.2)]

theorem Core.bondComp_card {V : LV} {P : PV} (C : Core L V P) {k : Nat} (hk : VOcc L V k) (d : Dir) :
    (bondComp L (VOcc L V) (bondAt L k d)).card = (P.cb (V.sg k)).length := by
  have hg := (C.sgr k hk.1).resolve_left (by have := hk.2; omega)
  rw [C.bondComp_eq (bondAt_lt hk.1 d), C.inc _ _ hk, List.toFinset_card_of_nodup (C.ndb _ hg.1 hg.2)]

/-- Invariant of histories with detection after every placement. -/
structure SeqInv (L : Nat) (A : Abs α) (seq : List Nat) : Prop where
  occ : ∀ s, VOcc L A.V s ↔ s ∈ seq
  nd : seq.Nodup
  count : A.count = seq.length
  off : A.aw = false → 3 ≤ L → Consistent L A.V
  on : A.aw = true → ∃ pre k post, seq = pre ++ k :: post ∧ ¬ Wraps L (· ∈ pre) ∧ WrapsAt L (· ∈ pre ++ [k]) k ∧
    A.pco = pre.length + 1 ∧ A.pcs = some (siteComp L (· ∈ pre ++ [k]) k).card ∧
    (∀ d, A.pcb = some (bondComp L (· ∈ pre ++ [k]) (bondAt L k d)).card) ∧ A.V.sg k = A.wid

theorem SeqInv.occ_eq {A : Abs α} {seq : List Nat} (h : SeqInv L A seq) : VOcc L A.V = (· ∈ seq) :=
  funext fun s => propext (h.occ s)

theorem SeqInv.init (env : Env α) (L : Nat) (sel : Option Nat) : SeqInv L (Abs.init env L sel) [] := by
  have hn : ∀ s, ¬ VOcc L (Abs.init env L sel).V s := by
    rintro s ⟨_, h⟩
    exact absurd h (show ¬ (0 : Int) ≤ -1 by decide)
  exact ⟨fun s => by simp [hn s], List.nodup_nil, rfl, fun _ _ s d h _ => absurd h (hn s), fun h => by cases h⟩

theorem SeqInv.tick {A : Abs α} {seq : List Nat} (h : SeqInv L A seq) {V1 : LV} (hV : SameV A.V V1) : SeqInv L { A with V := V1 } seq := by
  have e := hV.vocc (L := L)
  have ed : V1.dr = A.V.dr := by
    funext s t; unfold LV.dr; rw [hV.2.1]
  refine ⟨?_, h.nd, h.count, ?_, ?_⟩
  · show ∀ s, VOcc L V1 s ↔ _
    rw [e]; exact h.occ
  · intro ha hL
    show Consistent L V1
    unfold Consistent
    rw [e, ed]; exact h.off ha hL
  · intro ha
    obtain ⟨pre, k, post, h1, h2, h3, h4, h5, h6, h7⟩ := h.on ha
    exact ⟨pre, k, post, h1, h2, h3, h4, h5, h6, by show V1.sg k = _; rw [hV.1]; exact h7⟩

/-- What `detect_wrapping` does to the abstract state. -/
theorem detectWrapping_sim' {S S' : Perc α} {A : Abs α} {w : Bool} (M : Sim env L S A) (I : AInv L A)
    (h : S.detectWrapping = .ok (S', w)) :
    (A.aw = true ∧ S' = S ∧ w = true) ∨
    (A.aw = false ∧ ∃ k, A.sel = some k ∧ ((¬ Hit L A.V k ∧ S' = S ∧ w = false) ∨
      (0 ≤ A.V.sg k ∧ Hit L A.V k ∧ w = true ∧ Sim env L S' (A.detected k)))) := by
  rcases detectWrapping_sim M I h with h | ⟨h1, k, hk, h | ⟨h0, hH, rfl, rfl⟩⟩
  · exact Or.inl h
  · exact Or.inr ⟨h1, k, hk, Or.inl h⟩
  · exact Or.inr ⟨h1, k, hk, Or.inr ⟨h0, hH, rfl,
      ⟨M.lat, M.pool, M.count, M.lsz, M.lid, M.ent, rfl, rfl, M.count, rfl, rfl, M.sel, M.me, M.cc⟩⟩⟩

/-- A detection between placements finds nothing new. -/
theorem SeqInv.no_hit {A : Abs α} {seq : List Nat} (h : SeqInv L A seq) (hA : AReach env L A) (ha : A.aw = false) {k : Nat}
    (hk : A.sel = some k) (h0 : 0 ≤ A.V.sg k) : ¬ Hit L A.V k := by
  have hk' : VOcc L A.V k := ⟨hA.inv.selLt k hk, h0⟩
  by_cases hL : 3 ≤ L
  · exact (h.off ha hL).not_hit hk'
  · exact (hA.wrap.flat (by omega)).1.not_hit (by omega) hk'

/-- Placement followed by detection. -/
theorem SeqInv.placed {A : Abs α} {seq : List Nat} (h : SeqInv L A seq) (hA : AReach env L A) {k : Nat} {r : Int} {V' : LV} {P' : PV}
    (hk : k < L * L) (hu : A.V.sg k = -1) (E : PlaceEffect L k r A.V V' A.P P') (hr : RootRule L A.V A.P k A.aw A.wid r) :
    (A.aw = true → SeqInv L (A.placed env L k r V' P') (seq ++ [k])) ∧
    (A.aw = false → ¬ Hit L V' k → SeqInv L (A.placed env L k r V' P') (seq ++ [k])) ∧
    (A.aw = false → Hit L V' k → SeqInv L ((A.placed env L k r V' P').detected k) (seq ++ [k])) := by
  have C := hA.inv.core
  have hocc : ∀ s, VOcc L V' s ↔ s ∈ seq ++ [k] := by
    intro s
    rw [E.occ_iff C hk, h.occ, List.mem_append, List.mem_singleton]
  have hkn : k ∉ seq := by
    rw [← h.occ]; rintro ⟨_, h⟩; omega
  have hnd : (seq ++ [k]).Nodup := by
    rw [List.nodup_append]
    refine ⟨h.nd, by simp, ?_⟩
    rintro a ha b hb rfl
    rw [List.mem_singleton] at hb
    exact hkn (hb ▸ ha)
  have hcount : A.count + 1 = (seq ++ [k]).length := by rw [h.count]; simp
  have hko : VOcc L V' k := (hocc k).2 (by simp)
  have hA' : AReach env L (A.placed env L k r V' P') := .step hA (.place hk hu E hr)
  refine ⟨fun ha => ⟨hocc, hnd, hcount, fun h => ?_, fun _ => ?_⟩, fun ha hn => ⟨hocc, hnd, hcount, fun _ hL => ?_, fun h => ?_⟩,
    fun ha hH => ⟨hocc, hnd, hcount, fun h => (by cases h), fun _ => ?_⟩⟩
  · have h : A.aw = false := h
    rw [ha] at h; cases h
  · obtain ⟨pre, k0, post, h1, h2, h3, h4, h5, h6, h7⟩ := h.on ha
    refine ⟨pre, k0, post ++ [k], by rw [h1]; simp, h2, h3, h4, h5, h6, ?_⟩
    have hk0 : VOcc L A.V k0 := (h.occ k0).2 (by rw [h1]; simp)
    have hne : k0 ≠ k := by rintro rfl; have := hk0.2; omega
    rw [ha] at hr
    exact E.keeps_wid hr hk0.1 hne h7
  · exact Consistent.place hL E C hk hu (h.off ha hL) (hA.wrap.lift hL) hn
  · have h : A.aw = true := h
    rw [ha] at h; cases h
  · have hL : 3 ≤ L := by
      by_contra hL
      exact (hA'.wrap.flat (by omega)).1.not_hit (by omega) hko hH
    have e : VOcc L V' = (· ∈ seq ++ [k]) := funext fun s => propext (hocc s)
    have C' : Core L V' P' := hA'.inv.core
    refine ⟨seq, k, [], rfl, ?_, ?_, hcount.trans (by simp), ?_, ?_, rfl⟩
    · rw [← h.occ_eq]; exact (h.off ha hL).not_wraps
    · rw [← e]; exact (hA'.wrap.lift hL).wraps_of_hit hko hH
    · rw [← e, C'.siteComp_card hko]; rfl
    · intro d; rw [← e, C'.bondComp_card hko]; rfl

/-- Every trace is simulated and satisfies the invariant. -/
theorem Trace.sim {S : Perc α} {seq : List Nat} (h : Trace env v L S seq) :
    0 < L ∧ ∃ A, Sim env L S A ∧ AReach env L A ∧ SeqInv L A seq := by
  induction h with
  | new h =>
    obtain ⟨h1, _, h2⟩ := new_sim h
    exact ⟨h1, _, h2, .init (by simp), .init env L none⟩
  | @placed S0 S1 S2 seq0 d b w k _ hp hf hs hd ih =>
    obtain ⟨hL, A, M, hA, I⟩ := ih
    refine ⟨hL, ?_⟩
    obtain ⟨_, V1, hV, h | h | h⟩ := placeOneSite_sim M hA.inv hp
    rotate_left
    · rw [h.1] at hf; cases hf
    · rw [h.1] at hf; cases hf
    obtain ⟨_, _, k', r, V', P', hk, hg, E, hr, hsel, M1⟩ := h
    rw [hs] at hsel
    cases hsel
    have hA0 : AReach env L { A with V := V1 } := .step hA (.tick hV)
    have hu : V1.sg k = -1 := by rw [hV.1]; exact hg
    have hA1 : AReach env L (({ A with V := V1 } : Abs α).placed env L k r V' P') := .step hA0 (.place hk hu E hr)
    obtain ⟨p1, p2, p3⟩ := (I.tick hV).placed hA0 hk hu E hr
    rcases detectWrapping_sim' M1 hA1.inv hd with ⟨ha, rfl, _⟩ | ⟨ha, k2, hk2, ⟨hn, rfl, _⟩ | ⟨h0, hH, _, M2⟩⟩
    · exact ⟨_, M1, hA1, p1 ha⟩
    · cases hk2; exact ⟨_, M1, hA1, p2 ha hn⟩
    · cases hk2; exact ⟨_, M2, .step hA1 (.detect ha rfl h0 hH), p3 ha hH⟩
  | skipped _ hp hf ih =>
    obtain ⟨hL, A, M, hA, I⟩ := ih
    refine ⟨hL, ?_⟩
    obtain ⟨_, V1, hV, h | h | h⟩ := placeOneSite_sim M hA.inv hp
    · exact absurd h.1 hf
    · exact ⟨_, h.2.2, .step hA (.tick hV), I.tick hV⟩
    · exact ⟨_, h.2.2, .step hA (.tick hV), I.tick hV⟩
  | detect _ hd ih =>
    obtain ⟨hL, A, M, hA, I⟩ := ih
    refine ⟨hL, ?_⟩
    rcases detectWrapping_sim' M hA.inv hd with ⟨ha, rfl, _⟩ | ⟨ha, k2, hk2, ⟨hn, rfl, _⟩ | ⟨h0, hH, _, M2⟩⟩
    · exact ⟨A, M, hA, I⟩
    · exact ⟨A, M, hA, I⟩
    · exact absurd hH (I.no_hit hA ha hk2 h0)
  | start h hr =>
    obtain ⟨hL, A, M, hA⟩ := h.sim
    exact ⟨hL, _, reset_sim M hr, .init hA.inv.selLt, .init env L _⟩
  | reset _ hr ih =>
    obtain ⟨hL, A, M, hA, I⟩ := ih
    exact ⟨hL, _, reset_sim M hr, .init hA.inv.selLt, .init env L _⟩
  | shuffle _ hr ih =>
    obtain ⟨hL, A, M, hA, I⟩ := ih
    exact ⟨hL, A, shuffle_sim M hr, hA, I⟩
  | setIds _ hr ih =>
    obtain ⟨hL, A, M, hA, I⟩ := ih
    exact ⟨hL, A, setCustomIds_sim M hr, hA, I⟩
  | setIndices _ hr ih =>
    obtain ⟨hL, A, M, hA, I⟩ := ih
    exact ⟨hL, A, setCustomIndices_sim M hr, hA, I⟩
  | swapIds _ hr ih =>
    obtain ⟨hL, A, M, hA, I⟩ := ih
    obtain ⟨ids, rev, rfl⟩ := swapIds_ok hr
    exact ⟨hL, A, M.aux rfl rfl rfl rfl rfl rfl rfl rfl rfl rfl rfl rfl rfl rfl, hA, I⟩
  | raised _ hr ih =>
    obtain ⟨hL, A, M, hA, I⟩ := ih
    rcases placeRaised_steps' M hA.inv hr with h2 | ⟨k, hk, h0, h2⟩
    · exact ⟨hL, A, h2, hA, I⟩
    · exact ⟨hL, _, h2, hA.step (.reselect hk h0), I.occ, I.nd, I.count, I.off, I.on⟩
  | swapRaised _ hr ih =>
    obtain ⟨hL, A, M, hA, I⟩ := ih
    obtain ⟨ids, hi⟩ := swapRaised_form _ _ _
    rw [hi]
    exact ⟨hL, A, M.aux rfl rfl rfl rfl rfl rfl rfl rfl rfl rfl rfl rfl rfl rfl, hA, I⟩
  | data fr l1 l2 l3 l4 p _ ih =>
    obtain ⟨hL, A, M, hA, I⟩ := ih
    exact ⟨hL, A, M.aux rfl rfl rfl rfl rfl rfl rfl rfl rfl rfl rfl rfl rfl rfl, hA, I⟩
  | write l _ ih =>
    obtain ⟨hL, A, M, hA, I⟩ := ih
    exact ⟨hL, A, M.aux rfl rfl rfl rfl rfl rfl rfl rfl rfl rfl rfl rfl rfl rfl, hA, I⟩

/-! ### The loops are traces -/

theorem Trace.record {S S' : Perc α} {seq : List Nat} (h : Trace env v L S seq) (hr : S.record env = .ok S') : Trace env v L S' seq := by
  obtain ⟨p, _, rfl⟩ := record_ok hr
  exact h.data S.firstRun _ _ _ _ S.shortestP

theorem Trace.place {S S1 S2 : Perc α} {seq : List Nat} {d : Draw} {b w : Bool} (h : Trace env v L S seq)
    (hp : S.placeOneSite env v d = .ok (S1, b)) (hf : S1.selectionFlag = some .success) (hd : S1.detectWrapping = .ok (S2, w)) :
    ∃ k, S1.selected = some k ∧ S2.selected = some k ∧ Trace env v L S2 (seq ++ [k]) := by
  obtain ⟨_, A, M, hA, _⟩ := h.sim
  obtain ⟨A1, hst, M1⟩ := placeOneSite_steps M hA.inv hp
  obtain ⟨_, _, e, _⟩ := detectWrapping_steps M1 (hA.inv.steps hst) hd
  obtain ⟨_, V1, hV, h' | h' | h'⟩ := placeOneSite_sim M hA.inv hp
  rotate_left
  · rw [h'.1] at hf; cases hf
  · rw [h'.1] at hf; cases hf
  obtain ⟨_, _, k, r, V', P', hk, hg, E, hr, hsel, M1⟩ := h'
  exact ⟨k, hsel, e.trans hsel, h.placed hp hf hsel hd⟩

theorem Trace.runLoop (fuel : Nat) : ∀ {ds : Nat → Draw} {S S' : Perc α} {seq : List Nat}, Trace env v L S seq →
    Perc.runLoop env v fuel ds S = .ok S' → ∃ seq', Trace env v L S' (seq ++ seq') := by
  induction fuel with
  | zero => intro ds S S' seq _ h; cases h
  | succ fuel ih =>
    intro ds S S' seq T h
    simp only [Perc.runLoop] at h
    cases hp : S.placeOneSite env v (ds 0) with
    | error e => rw [hp] at h; cases h
    | ok res =>
      obtain ⟨S1, more⟩ := res
      rw [hp] at h
      cases more with
      | false =>
        replace h : (Except.ok S1 : Py (Perc α)) = _ := h
        rw [← Except.ok.inj h]
        obtain ⟨_, A, M, hA, _⟩ := T.sim
        have hf : S1.selectionFlag ≠ some .success := by
          obtain ⟨_, V1, hV, h' | h' | h'⟩ := placeOneSite_sim M hA.inv hp
          · exact absurd h'.2.1 (by simp)
          · rw [h'.1]; simp
          · rw [h'.1]; simp
        exact ⟨[], by rw [List.append_nil]; exact T.skipped hp hf⟩
      | true =>
        replace h : (if S1.selectionFlag = some .success then _ else _) = _ := h
        split at h
        · next hf =>
          cases hd : S1.detectWrapping with
          | error e => rw [hd] at h; cases h
          | ok res =>
            obtain ⟨S2, w⟩ := res
            rw [hd] at h
            obtain ⟨k, _, _, T2⟩ := T.place hp hf hd
            replace h : (S2.record env >>= _) = _ := h
            cases hr : S2.record env with
            | error e => rw [hr] at h; cases h
            | ok S3 =>
              rw [hr] at h
              obtain ⟨seq', T'⟩ := ih (T2.record hr) h
              exact ⟨k :: seq', by simpa using T'⟩
        · next hf => exact ih (T.skipped hp hf) h

theorem Trace.testRunLoop (fuel : Nat) : ∀ {ds : Nat → Draw} {S S' : Perc α} {seq : List Nat}, Trace env v L S seq →
    Perc.testRunLoop env v fuel ds S = .ok S' → ∃ seq', Trace env v L S' (seq ++ seq') := by
  induction fuel with
  | zero => intro ds S S' seq _ h; cases h
  | succ fuel ih =>
    intro ds S S' seq T h
    simp only [Perc.testRunLoop] at h
    cases hp : S.placeOneSite env v (ds 0) with
    | error e => rw [hp] at h; cases h
    | ok res =>
      obtain ⟨S1, more⟩ := res
      rw [hp] at h
      cases more with
      | false =>
        replace h : (Except.ok S1 : Py (Perc α)) = _ := h
        rw [← Except.ok.inj h]
        obtain ⟨_, A, M, hA, _⟩ := T.sim
        have hf : S1.selectionFlag ≠ some .success := by
          obtain ⟨_, V1, hV, h' | h' | h'⟩ := placeOneSite_sim M hA.inv hp
          · exact absurd h'.2.1 (by simp)
          · rw [h'.1]; simp
          · rw [h'.1]; simp
        exact ⟨[], by rw [List.append_nil]; exact T.skipped hp hf⟩
      | true =>
        replace h : (if S1.selectionFlag = some .success then _ else _) = _ := h
        split at h
        · next hf =>
          cases hd : S1.detectWrapping with
          | error e => rw [hd] at h; cases h
          | ok res =>
            obtain ⟨S2, w⟩ := res
            rw [hd] at h
            obtain ⟨k, _, _, T2⟩ := T.place hp hf hd
            cases w with
            | true =>
              replace h : (pyAssert _ >>= _) = _ := h
              cases ha : pyAssert (decide (S2.pcOccupied > S2.getSiteCountPc)) with
              | error e => rw [ha] at h; cases h
              | ok u =>
                rw [ha] at h
                replace h : (Except.ok S2 : Py (Perc α)) = _ := h
                rw [← Except.ok.inj h]
                exact ⟨[k], T2⟩
            | false =>
              replace h : (S2.record env >>= _) = _ := h
              cases hr : S2.record env with
              | error e => rw [hr] at h; cases h
              | ok S3 =>
                rw [hr] at h
                obtain ⟨seq', T'⟩ := ih (T2.record hr) h
                exact ⟨k :: seq', by simpa using T'⟩
        · next hf => exact ih (T.skipped hp hf) h

/-! ### Runs that raise are traces -/

theorem placeOneSite_flags {S S1 : Perc α} {A : Abs α} {d : Draw} {b : Bool} (M : Sim env L S A) (I : AInv L A)
    (h : S.placeOneSite env v d = .ok (S1, b)) :
    (b = false → S1.selectionFlag ≠ some .success) ∧ (S1.selectionFlag = some .success → S1.selected ≠ none) := by
  obtain ⟨_, V1, hV, h | h | h⟩ := placeOneSite_sim M I h
  · obtain ⟨_, hb, k, _, _, _, _, _, _, _, hs, _⟩ := h
    exact ⟨fun h => (by rw [h] at hb; cases hb), fun _ => by rw [hs]; simp⟩
  · exact ⟨fun _ => by rw [h.1]; simp, fun hf => by rw [h.1] at hf; cases hf⟩
  · exact ⟨fun _ => by rw [h.1]; simp, fun hf => by rw [h.1] at hf; cases hf⟩

/-- A successful placement inside a run is followed by detection and bookkeeping, which do not raise. -/
theorem Trace.round {S S1 : Perc α} {seq : List Nat} {d : Draw} {b : Bool} (T : Trace env v L S seq)
    (h : S.placeOneSite env v d = .ok (S1, b)) (hf : S1.selectionFlag = some .success) :
    ∃ S2 S3 w k, S1.detectWrapping = .ok (S2, w) ∧ Trace env v L S2 (seq ++ [k]) ∧ S2.record env = .ok S3 ∧ Trace env v L S3 (seq ++ [k]) := by
  obtain ⟨_, A, M, hA, _⟩ := T.sim
  obtain ⟨A1, hst, M1⟩ := placeOneSite_steps M hA.inv h
  obtain ⟨S2, w, hd⟩ := detectWrapping_ok M1 (hA.steps hst).inv ((placeOneSite_flags M hA.inv h).2 hf)
  obtain ⟨k, _, _, T2⟩ := T.place h hf hd
  obtain ⟨_, A2, M2, hA2, _⟩ := T2.sim
  obtain ⟨S3, hr⟩ := record_progress M2 hA2
  exact ⟨S2, S3, w, k, hd, T2, hr, T2.record hr⟩

theorem Trace.ended {S S1 : Perc α} {seq : List Nat} {d : Draw} (T : Trace env v L S seq) (h : S.placeOneSite env v d = .ok (S1, false)) :
    Trace env v L S1 seq := by
  obtain ⟨_, A, M, hA, _⟩ := T.sim
  exact T.skipped h ((placeOneSite_flags M hA.inv h).1 rfl)

theorem Trace.runRaised (fuel : Nat) : ∀ {ds : Nat → Draw} {S : Perc α} {seq : List Nat}, Trace env v L S seq →
    ∃ seq', Trace env v L (S.runRaised env v fuel ds) (seq ++ seq') := by
  induction fuel with
  | zero => intro ds S seq T; exact ⟨[], by rw [List.append_nil]; exact T⟩
  | succ fuel ih =>
    intro ds S seq T
    rw [Perc.runRaised]
    split
    · next h => exact ⟨[], by rw [List.append_nil]; exact T.raised h⟩
    · next h => exact ⟨[], by rw [List.append_nil]; exact T.ended h⟩
    · next S1 h =>
      split
      · next hf =>
        obtain ⟨S2, S3, w, k, hd, T2, hr, T3⟩ := T.round h hf
        simp only [hd, hr]
        obtain ⟨seq', T'⟩ := ih T3
        exact ⟨k :: seq', by rw [show seq ++ k :: seq' = seq ++ [k] ++ seq' by simp]; exact T'⟩
      · next hf => exact ih (T.skipped h hf)

theorem Trace.testRunRaised (fuel : Nat) : ∀ {ds : Nat → Draw} {S : Perc α} {seq : List Nat}, Trace env v L S seq →
    ∃ seq', Trace env v L (S.testRunRaised env v fuel ds) (seq ++ seq') := by
  induction fuel with
  | zero => intro ds S seq T; exact ⟨[], by rw [List.append_nil]; exact T⟩
  | succ fuel ih =>
    intro ds S seq T
    rw [Perc.testRunRaised]
    split
    · next h => exact ⟨[], by rw [List.append_nil]; exact T.raised h⟩
    · next h => exact ⟨[], by rw [List.append_nil]; exact T.ended h⟩
    · next S1 h =>
      split
      · next hf =>
        obtain ⟨S2, S3, w, k, hd, T2, hr, T3⟩ := T.round h hf
        cases w with
        | true => simp only [hd]; exact ⟨[k], T2⟩
        | false =>
          simp only [hd, hr]
          obtain ⟨seq', T'⟩ := ih T3
          exact ⟨k :: seq', by rw [show seq ++ k :: seq' = seq ++ [k] ++ seq' by simp]; exact T'⟩
      · next hf => exact ih (T.skipped h hf)

theorem Trace.spRaised (fuel : Nat) : ∀ {S : Perc α} {seq : List Nat}, Trace env .sp L S seq →
    ∃ seq', Trace env .sp L (S.spRaised env fuel) (seq ++ seq') := by
  induction fuel with
  | zero => intro S seq T; exact ⟨[], by rw [List.append_nil]; exact T⟩
  | succ fuel ih =>
    intro S seq T
    rw [Perc.spRaised]
    split
    · next h => exact ⟨[], by rw [List.append_nil]; exact T.raised h⟩
    · next h => exact ⟨[], by rw [List.append_nil]; exact T.ended h⟩
    · next S1 h =>
      split
      · next hf =>
        obtain ⟨S2, S3, w, k, hd, T2, hr, T3⟩ := T.round h hf
        simp only [hd]
        obtain ⟨seq', T'⟩ := ih T2
        exact ⟨k :: seq', by rw [show seq ++ k :: seq' = seq ++ [k] ++ seq' by simp]; exact T'⟩
      · next hf => exact ih (T.skipped h hf)

/-- A call that raises continues a trace. -/
theorem Trace.stepRaised {S : Perc α} {seq : List Nat} {op : Op} {e : PyErr} (T : Trace env v L S seq) (h : step env v S op = .error e) :
    ∃ seq', Trace env v L (stepRaised env v S op) (seq ++ seq') := by
  have same : Trace env v L S (seq ++ []) := by rw [List.append_nil]; exact T
  cases op with
  | place d =>
    simp only [step] at h
    cases h1 : S.placeOneSite env v d with
    | error e => exact ⟨[], by rw [List.append_nil]; exact T.raised h1⟩
    | ok r => rw [h1] at h; cases h
  | swapIds i j => exact ⟨[], by rw [List.append_nil]; exact T.swapRaised h⟩
  | runOnce fuel ds =>
    cases v with
    | sp => exact T.spRaised fuel
    | l0 => exact T.runRaised fuel
    | l1 => exact T.runRaised fuel
    | l2 => exact T.runRaised fuel
  | testRunOnce fuel ds => exact T.testRunRaised fuel
  | detect => exact ⟨[], same⟩
  | reset _ => exact ⟨[], same⟩
  | shuffle _ => exact ⟨[], same⟩
  | setIds _ _ _ => exact ⟨[], same⟩
  | setIndices _ _ _ => exact ⟨[], same⟩

end SqPerc
