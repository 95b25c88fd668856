import Verif.Spec.Lines
import Verif.Proof.Custom
import Verif.Proof.Lines
/-
`ShortestPathAfter_pc`.
-/
namespace SqPerc

variable {α : Type} {L : Nat} {env : Env α} {v : Variant} {S S' S1 S2 : Perc α} {A : Abs α} {seq q : List Nat} {b : Bool}

/-- Occupied sites have the same gid iff they are connected. -/
theorem Core.sg_eq_iff {V : LV} {P : PV} (C : Core L V P) {s t : Nat} (hs : VOcc L V s) (ht : VOcc L V t) :
    V.sg s = V.sg t ↔ SiteConn L (VOcc L V) s t := by
  rw [siteConn_iff vocc_lt hs ht .right .right, ← C.conn _ _ (bondAt_lt hs.1 _) (bondAt_lt ht.1 _), C.inc _ _ hs, C.inc _ _ ht]

/-- The first wrapping site is unique. -/
theorem first_unique {pre pre' post post' : List Nat} {k k' : Nat} (h : pre ++ k :: post = pre' ++ k' :: post')
    (h1 : ¬ Wraps L (· ∈ pre)) (h2 : Wraps L (· ∈ pre ++ [k])) (h1' : ¬ Wraps L (· ∈ pre')) (h2' : Wraps L (· ∈ pre' ++ [k'])) :
    pre = pre' ∧ k = k' ∧ post = post' := by
  have aux : ∀ {pre pre' post post' : List Nat} {k k' : Nat}, pre ++ k :: post = pre' ++ k' :: post' →
      Wraps L (· ∈ pre ++ [k]) → ¬ Wraps L (· ∈ pre') → ¬ pre.length < pre'.length := by
    intro pre pre' post post' k k' h h2 h1' hlt
    apply h1'
    have hp : (pre ++ [k]) <+: pre' := by
      have hp1 : (pre ++ [k]) <+: pre ++ k :: post := ⟨post, by simp⟩
      have hp2 : pre' <+: pre ++ k :: post := ⟨k' :: post', h.symm⟩
      exact List.prefix_of_prefix_length_le hp1 hp2 (by simp; omega)
    exact h2.mono fun s hs => hp.subset hs
  have hlen : pre.length = pre'.length := by
    have := aux h h2 h1'
    have := aux h.symm h2' h1
    omega
  obtain ⟨e1, e2⟩ := List.append_inj h hlen
  have := List.cons.inj e2
  exact ⟨e1, this.1, this.2⟩

/-- The sites carrying the gid of the wrapping cluster. -/
theorem SeqInv.inWrap_iff (I : SeqInv L A seq) (hA : AReach env L A) (ha : A.aw = true) {s : Nat} (hs : s < L * L) :
    A.V.sg s = A.wid ↔ InWrap L seq s := by
  have C := hA.inv.core
  obtain ⟨pre, k, post, h1, h2, h3, _, _, _, h7⟩ := I.on ha
  have hk : VOcc L A.V k := (I.occ k).2 (by rw [h1]; simp)
  have e := I.occ_eq
  constructor
  · intro hg
    have hso : VOcc L A.V s := ⟨hs, by rw [hg, ← h7]; exact hk.2⟩
    refine ⟨pre, k, post, h1, h2, h3.wraps, ?_⟩
    rw [← e]
    exact (C.sg_eq_iff hk hso).1 (h7.trans hg.symm)
  · rintro ⟨pre', k', post', h1', h2', h3', hc⟩
    obtain ⟨rfl, rfl, rfl⟩ := first_unique (h1.symm.trans h1') h2 h3.wraps h2' h3'
    rw [← e] at hc
    have hso : VOcc L A.V s := by
      rcases Relation.ReflTransGen.cases_tail hc with rfl | ⟨_, _, h⟩
      · exact hk
      · exact h.2.1
    rw [← h7]; exact ((C.sg_eq_iff hk hso).2 hc).symm

theorem Trace.inWrap_iff (T : Trace env v L S seq) (ha : S.afterWrapping = true) {s : Nat} (hs : s < L * L) :
    S.lat.getSiteGid s = .ok S.wrappingId ↔ InWrap L seq s := by
  obtain ⟨_, A, M, hA, I⟩ := T.sim
  rw [M.siteGid hs, M.wid, ← I.inWrap_iff hA (M.aw ▸ ha) hs]
  exact ⟨Except.ok.inj, congrArg Except.ok⟩

/-! ### Scans -/

open Classical in
theorem scanLines_eq (M : Sim env L S A) {rr cc : Nat} (hr : rr < L) (hc : cc < L) (xs : List Nat) (hx : ∀ x ∈ xs, x < L) :
    ∀ fl : Bool × Bool, S.scanLines rr cc xs fl =
      .ok (fl.1 && decide (∀ x ∈ xs, A.V.sg (rr * L + x) = A.wid), fl.2 && decide (∀ x ∈ xs, A.V.sg (x * L + cc) = A.wid)) := by
  induction xs with
  | nil => intro fl; simp [Perc.scanLines]
  | cons x xs ih =>
    intro fl
    have hxl := hx x (by simp)
    have hlen : S.lat.length = L := by rw [M.lat]; rfl
    simp only [Perc.scanLines, Lattice.getIdFromIndex, hlen]
    rw [M.siteGid (rc_lt hr hxl)]
    show (S.lat.getSiteGid (x * L + cc) >>= _) = _
    rw [M.siteGid (rc_lt hxl hc)]
    show S.scanLines rr cc xs (if A.V.sg (rr * L + x) ≠ S.wrappingId then false else fl.1, if A.V.sg (x * L + cc) ≠ S.wrappingId then false else fl.2) = _
    rw [ih (fun y hy => hx y (by simp [hy])), M.wid]
    congr 2
    · by_cases h : A.V.sg (rr * L + x) = A.wid
      · simp [h]
      · simp [h]
    · by_cases h : A.V.sg (x * L + cc) = A.wid
      · simp [h]
      · simp [h]

open Classical in
/-- `scan_row_col_of_selected_site`. -/
theorem Trace.scanRowCol (T : Trace env v L S seq) (ha : S.afterWrapping = true) {rr cc : Nat} (hr : rr < L) (hc : cc < L) :
    S.scanRowCol rr cc = .ok (decide (RowIn L (InWrap L seq) rr), decide (ColIn L (InWrap L seq) cc)) := by
  obtain ⟨_, A, M, hA, I⟩ := T.sim
  have hlen : S.lat.length = L := by rw [M.lat]; rfl
  have haw : A.aw = true := M.aw ▸ ha
  rw [Perc.scanRowCol, hlen, scanLines_eq M hr hc (List.range L) (fun x hx => List.mem_range.1 hx)]
  simp only [Bool.true_and, List.mem_range]
  congr 2
  · apply decide_eq_decide.2
    exact forall₂_congr fun c hc' => I.inWrap_iff hA haw (rc_lt hr hc')
  · apply decide_eq_decide.2
    exact forall₂_congr fun r hr' => I.inWrap_iff hA haw (rc_lt hr' hc)

open Classical in
theorem lineFlag_eq (M : Sim env L S A) (l : List Nat) (hl : ∀ s ∈ l, s < L * L) :
    ∀ f : Bool, S.lineFlag l f = .ok (f && decide (∀ s ∈ l, A.V.sg s = A.wid)) := by
  induction l with
  | nil => intro f; simp [Perc.lineFlag]
  | cons s l ih =>
    intro f
    simp only [Perc.lineFlag]
    rw [M.siteGid (hl s (by simp))]
    show S.lineFlag l (if A.V.sg s ≠ S.wrappingId then false else f) = _
    rw [ih (fun y hy => hl y (by simp [hy])), M.wid]
    congr 1
    by_cases h : A.V.sg s = A.wid
    · simp [h]
    · simp [h]

open Classical in
theorem anyLine_eq (M : Sim env L S A) (ls : List (List Nat)) (hl : ∀ l ∈ ls, ∀ s ∈ l, s < L * L) :
    S.anyLine ls = .ok (decide (∃ l ∈ ls, ∀ s ∈ l, A.V.sg s = A.wid)) := by
  induction ls with
  | nil => simp [Perc.anyLine]
  | cons l ls ih =>
    simp only [Perc.anyLine]
    rw [lineFlag_eq M l (hl l (by simp))]
    show (if (true && decide (∀ s ∈ l, A.V.sg s = A.wid)) = true then (pure true : Py Bool) else S.anyLine ls) = _
    rw [ih (fun l h => hl l (by simp [h]))]
    by_cases h : ∀ s ∈ l, A.V.sg s = A.wid
    · rw [if_pos (by simpa using h)]
      congr 1
      symm
      rw [decide_eq_true_eq]
      exact ⟨l, by simp, h⟩
    · rw [if_neg (by simpa using h)]
      congr 1
      apply decide_eq_decide.2
      simp [h]

open Classical in
/-- `scan_all_cols` tells whether the wrapping cluster contains a complete row, `scan_all_rows` whether it contains a complete column. -/
theorem Trace.scanAll (T : Trace env v L S seq) :
    S.scanAllCols = .ok (decide (HasWrapped L seq ∧ ∃ r < L, RowIn L (InWrap L seq) r)) ∧
    S.scanAllRows = .ok (decide (HasWrapped L seq ∧ ∃ c < L, ColIn L (InWrap L seq) c)) := by
  obtain ⟨_, A, M, hA, I⟩ := T.sim
  have hlen : S.lat.length = L := by rw [M.lat]; rfl
  cases haw : A.aw with
  | false =>
    have hn : ¬ HasWrapped L seq := by
      rw [← T.aw_iff, M.aw, haw]; simp
    have hw : S.wrappingId < 0 := by rw [M.wid, (hA.wrap.off haw).1]; decide
    rw [Perc.scanAllCols, Perc.scanAllRows, if_pos hw, if_pos hw, decide_eq_false (fun h => hn h.1), decide_eq_false (fun h => hn h.1)]
    exact ⟨rfl, rfl⟩
  | true =>
    have hy : HasWrapped L seq := by rw [← T.aw_iff, M.aw, haw]
    have hw : ¬ S.wrappingId < 0 := by
      rw [M.wid]
      have := (mem_gids.1 (hA.wid_gids haw).1).1
      omega
    rw [Perc.scanAllCols, Perc.scanAllRows, if_neg hw, if_neg hw, hlen]
    constructor
    · rw [anyLine_eq M]
      · congr 1
        apply decide_eq_decide.2
        constructor
        · rintro ⟨l, hl, h⟩
          obtain ⟨r, hr, rfl⟩ := List.mem_map.1 hl
          rw [List.mem_range] at hr
          refine ⟨hy, r, hr, fun c hc => (I.inWrap_iff hA haw (rc_lt hr hc)).1 (h _ ?_)⟩
          exact List.mem_map.2 ⟨c, List.mem_range.2 hc, by simp [Lattice.getIdFromIndex, hlen]⟩
        · rintro ⟨_, r, hr, h⟩
          refine ⟨_, List.mem_map.2 ⟨r, List.mem_range.2 hr, rfl⟩, fun s hs => ?_⟩
          obtain ⟨c, hc, rfl⟩ := List.mem_map.1 hs
          rw [List.mem_range] at hc
          simp only [Lattice.getIdFromIndex, hlen]
          exact (I.inWrap_iff hA haw (rc_lt hr hc)).2 (h c hc)
      · intro l hl s hs
        obtain ⟨r, hr, rfl⟩ := List.mem_map.1 hl
        obtain ⟨c, hc, rfl⟩ := List.mem_map.1 hs
        rw [List.mem_range] at hr hc
        simp only [Lattice.getIdFromIndex, hlen]
        exact rc_lt hr hc
    · rw [anyLine_eq M]
      · congr 1
        apply decide_eq_decide.2
        constructor
        · rintro ⟨l, hl, h⟩
          obtain ⟨c, hc, rfl⟩ := List.mem_map.1 hl
          rw [List.mem_range] at hc
          refine ⟨hy, c, hc, fun r hr => (I.inWrap_iff hA haw (rc_lt hr hc)).1 (h _ ?_)⟩
          exact List.mem_map.2 ⟨r, List.mem_range.2 hr, by simp [Lattice.getIdFromIndex, hlen]⟩
        · rintro ⟨_, c, hc, h⟩
          refine ⟨_, List.mem_map.2 ⟨c, List.mem_range.2 hc, rfl⟩, fun s hs => ?_⟩
          obtain ⟨r, hr, rfl⟩ := List.mem_map.1 hs
          rw [List.mem_range] at hr
          simp only [Lattice.getIdFromIndex, hlen]
          exact (I.inWrap_iff hA haw (rc_lt hr hc)).2 (h r hr)
      · intro l hl s hs
        obtain ⟨c, hc, rfl⟩ := List.mem_map.1 hl
        obtain ⟨r, hr, rfl⟩ := List.mem_map.1 hs
        rw [List.mem_range] at hr hc
        simp only [Lattice.getIdFromIndex, hlen]
        exact rc_lt hr hc

/-! ### The loop -/

/-- What `run_once` of the shortest path class does: `pre` are the sites placed before, `seq` those placed by the run. -/
structure SpRun (env : Env α) (L : Nat) (S S' : Perc α) (pre seq : List Nat) (stopped : Bool) : Prop where
  trace : Trace env .sp L S' (pre ++ seq)
  before : ∀ i k, seq[i]? = some k → (i + 1 < seq.length ∨ stopped = false) → ¬ Straight L (pre ++ seq.take (i + 1)) k
  last : stopped = true → ∃ k, seq.getLast? = some k ∧ S'.selected = some k ∧ Straight L (pre ++ seq) k ∧
    S'.selectionFlag = some .success ∧ S'.shortestP = S'.occupationProb env
  none : stopped = false → S'.shortestP = S.shortestP ∧ S'.selectionFlag = some .emptySiteList

theorem SpRun.cons {pre : List Nat} {k : Nat} (hk : ¬ Straight L (pre ++ [k]) k) (hp : S1.shortestP = S.shortestP)
    (h : SpRun env L S1 S' (pre ++ [k]) seq b) : SpRun env L S S' pre (k :: seq) b := by
  refine ⟨by simpa using h.trace, ?_, ?_, fun hb => by rw [← hp]; exact h.none hb⟩
  · intro i j hi hc
    cases i with
    | zero =>
      simp only [List.getElem?_cons_zero, Option.some.injEq] at hi
      subst hi
      simpa using hk
    | succ i =>
      rw [List.getElem?_cons_succ] at hi
      have := h.before i j hi (by simpa using hc)
      simpa using this
  · intro hb
    obtain ⟨j, h1, h2, h3, h4⟩ := h.last hb
    refine ⟨j, ?_, h2, by simpa using h3, h4⟩
    cases seq with
    | nil => cases h1
    | cons a l => rw [List.getLast?_cons_cons]; exact h1

/-- Success or exhaustion: L0 never rejects without running into the end of the list. -/
theorem place_sp_flag (M : Sim env L S A) (I : AInv L A) (h : S.placeOneSite env .sp ⟨0, 0⟩ = .ok (S', b)) :
    S'.selectionFlag = some .emptySiteList ∧ b = false ∨ S'.selectionFlag = some .success ∧ b = true := by
  obtain ⟨S1, flag, hs, hb, hf, K⟩ := placeOneSite_select M I h
  replace hs : S.selectL0 = .ok (S1, flag) := hs
  have : flag = .emptySiteList ∨ flag = .success := by
    simp only [Perc.selectL0] at hs
    split at hs
    · exact Or.inl (Prod.mk.inj (Except.ok.inj hs)).2.symm
    · cases hg : pyGet S.siteIds S.currentIdx with
      | error e => rw [hg] at hs; cases hs
      | ok k =>
        rw [hg] at hs
        replace hs : (S.lat.getSite k >>= _) = _ := hs
        cases h1 : S.lat.getSite k with
        | error e => rw [h1] at hs; cases hs
        | ok st =>
          rw [h1] at hs
          replace hs : (pyAssert (decide (st.gid = -1)) >>= _) = _ := hs
          cases h2 : pyAssert (decide (st.gid = -1)) with
          | error e => rw [h2] at hs; cases hs
          | ok u =>
            rw [h2] at hs
            exact Or.inr (Prod.mk.inj (Except.ok.inj hs)).2.symm
  rcases this with rfl | rfl
  · exact Or.inl ⟨hf, hb⟩
  · exact Or.inr ⟨hf, hb⟩

/-- `detect_wrapping` keeps the selection flag. -/
theorem detectWrapping_flag {w : Bool} (M : Sim env L S A) (I : AInv L A) (h : S.detectWrapping = .ok (S1, w)) :
    S1.selectionFlag = S.selectionFlag := by
  rcases detectWrapping_sim M I h with ⟨_, rfl, _⟩ | ⟨_, k, _, ⟨_, rfl, _⟩ | ⟨_, _, _, rfl⟩⟩ <;> rfl

/-- A round that detects wrapping. -/
theorem spLoop_wrapped {S S1 S2 : Perc α} {k : Nat} {st : Site} {f1 f2 : Bool} (hp : S.placeOneSite env .sp ⟨0, 0⟩ = .ok (S1, true))
    (hf : S1.selectionFlag = some .success) (hd : S1.detectWrapping = .ok (S2, true)) (hk : S2.selected = some k)
    (hst : S2.lat.getSite k = .ok st) (hsc : S2.scanRowCol st.index.c1.toNat st.index.c2.toNat = .ok (f1, f2)) (fuel : Nat) :
    Perc.spLoop env (fuel + 1) S =
      if (f1 || f2) = true then .ok ({ S2 with shortestP := S2.occupationProb env }, true) else Perc.spLoop env fuel S2 := by
  simp only [Perc.spLoop, hp, bind, Except.bind, if_true, hf, hd, hk, hst, hsc]
  rfl

/-- A round that detects no wrapping. -/
theorem spLoop_unwrapped {S S1 S2 : Perc α} (hp : S.placeOneSite env .sp ⟨0, 0⟩ = .ok (S1, true))
    (hf : S1.selectionFlag = some .success) (hd : S1.detectWrapping = .ok (S2, false)) (fuel : Nat) :
    Perc.spLoop env (fuel + 1) S = Perc.spLoop env fuel S2 := by
  simp [Perc.spLoop, hp, bind, Except.bind, hf, hd]

open Classical in
/-- One round of the loop from a state with `pre` placed. -/
theorem spLoop_round {pre : List Nat} (T : Trace env .sp L S pre) (h : S.placeOneSite env .sp ⟨0, 0⟩ = .ok (S1, b)) (fuel : Nat) :
    (b = false ∧ Perc.spLoop env (fuel + 1) S = .ok (S1, false) ∧ SpRun env L S S1 pre [] false) ∨
    (b = true ∧ ∃ S2 k, S1.selectionFlag = some .success ∧ S1.selected = some k ∧ Trace env .sp L S2 (pre ++ [k]) ∧ (∀ s, S2.Occ s ↔ S1.Occ s) ∧
      (∃ w, S1.detectWrapping = .ok (S2, w)) ∧ S2.shortestP = S.shortestP ∧
      (Straight L (pre ++ [k]) k ∧ Perc.spLoop env (fuel + 1) S = .ok ({ S2 with shortestP := S2.occupationProb env }, true) ∧
          SpRun env L S { S2 with shortestP := S2.occupationProb env } pre [k] true ∨
       ¬ Straight L (pre ++ [k]) k ∧ Perc.spLoop env (fuel + 1) S = Perc.spLoop env fuel S2)) := by
  obtain ⟨A, M, hA⟩ := T.reachable
  have hsp : S1.shortestP = S.shortestP := by
    obtain ⟨S0, f, h1, _, _, K⟩ := placeOneSite_select M hA.inv h
    rw [K.shortestP, (selectSite_unused M h1).2.2.2]
  rcases place_sp_flag M hA.inv h with ⟨hf, rfl⟩ | ⟨hf, rfl⟩
  · refine Or.inl ⟨rfl, by simp only [Perc.spLoop]; rw [h]; rfl, ?_, ?_, ?_, ?_⟩
    · rw [List.append_nil]; exact T.skipped h (by rw [hf]; simp)
    · intro i k hi; simp at hi
    · intro h; cases h
    · intro _; exact ⟨hsp, hf⟩
  · refine Or.inr ⟨rfl, ?_⟩
    obtain ⟨A1, hst, M1⟩ := placeOneSite_steps M hA.inv h
    have hA1 := hA.steps hst
    have hsel : S1.selected ≠ none := by
      rcases placeOneSite_occ M hA.inv h with ⟨_, _, k, h2, _⟩ | h'
      · rw [h2]; simp
      · exact absurd hf h'.1
    obtain ⟨S2, w, hd⟩ := detectWrapping_ok M1 hA1.inv hsel
    obtain ⟨k, hk1, hk2, T2⟩ := T.place h hf hd
    obtain ⟨K, hocc, _⟩ := detectWrapping_keep M1 hA1.inv hd
    obtain ⟨_, _, _, A2, hst2, M2, haw, _⟩ := detectWrapping_steps M1 hA1.inv hd
    have hklt : k < L * L := by
      obtain ⟨A2, M2, _⟩ := T2.reachable
      exact ((M2.occ_iff k).1 ((T2.reports.occ k).2 (by simp))).1
    have hL := pos_of_lt_sq hklt
    refine ⟨S2, k, hf, hk1, T2, hocc, ⟨w, hd⟩, by rw [K.shortestP, hsp], ?_⟩
    cases w with
    | false =>
      refine Or.inr ⟨fun hs => ?_, spLoop_unwrapped h hf hd fuel⟩
      have h1 := T2.aw_iff.2 hs.1
      have h2 := M2.aw
      rw [h1, haw] at h2
      cases h2
    | true =>
      have h1 : S2.afterWrapping = true := by rw [M2.aw, haw]
      have hw := T2.aw_iff.1 h1
      have hst : S2.lat.getSite k = .ok (mkSite L A2.V k) := by rw [M2.lat]; exact getSite_mk hklt
      have hsc := T2.scanRowCol h1 (rr := k / L) (cc := k % L) (Nat.div_lt_of_lt_mul hklt) (Nat.mod_lt _ hL)
      have hix : (mkSite L A2.V k).index.c1.toNat = k / L ∧ (mkSite L A2.V k).index.c2.toNat = k % L := ⟨rfl, rfl⟩
      rw [← hix.1, ← hix.2] at hsc
      have e := spLoop_wrapped h hf hd hk2 hst hsc fuel
      rw [hix.1, hix.2] at e
      by_cases hs : Straight L (pre ++ [k]) k
      · refine Or.inl ⟨hs, ?_, ?_⟩
        · rw [e, if_pos (by simpa using hs.2)]
        · refine ⟨T2.data _ _ _ _ _ _, ?_, fun _ => ⟨k, rfl, hk2, hs, ?_, rfl⟩, fun h => by cases h⟩
          · intro i j hi hc
            rcases hc with hc | hc
            · simp at hc
            · cases hc
          · show S2.selectionFlag = _
            rw [← hf]; exact detectWrapping_flag M1 hA1.inv hd
      · refine Or.inr ⟨hs, ?_⟩
        rw [e, if_neg]
        intro h
        apply hs
        exact ⟨hw, by simpa using h⟩

/-- The run, described by the sites it places. -/
theorem spLoop_run (fuel : Nat) : ∀ {S S' : Perc α} {pre : List Nat} {b : Bool}, Trace env .sp L S pre → Perc.spLoop env fuel S = .ok (S', b) →
    ∃ seq, SpRun env L S S' pre seq b := by
  induction fuel with
  | zero => intro S S' pre b _ h; cases h
  | succ fuel ih =>
    intro S S' pre b T h
    cases hp : S.placeOneSite env .sp ⟨0, 0⟩ with
    | error e => simp only [Perc.spLoop] at h; rw [hp] at h; cases h
    | ok r =>
      obtain ⟨S1, more⟩ := r
      rcases spLoop_round T hp fuel with ⟨rfl, e, R⟩ | ⟨rfl, S2, k, _, _, T2, _, _, hsp, ⟨_, e, R⟩ | ⟨hn, e⟩⟩
      · rw [e] at h
        obtain ⟨rfl, rfl⟩ := Prod.mk.inj (Except.ok.inj h)
        exact ⟨[], R⟩
      · rw [e] at h
        obtain ⟨rfl, rfl⟩ := Prod.mk.inj (Except.ok.inj h)
        exact ⟨[k], R⟩
      · rw [e] at h
        obtain ⟨seq, R⟩ := ih T2 h
        exact ⟨k :: seq, R.cons hn hsp⟩

/-- An object that works through the list `ids` of distinct sites: the run ends, and it places a segment of the list. -/
theorem spLoop_ready {ids : List Nat} (hnd : ids.Nodup) (fuel : Nat) : ∀ {S : Perc α} {i : Nat}, Trace env .sp L S (ids.take i) → L0Ready L S ids i →
    ids.length < i + fuel → ∃ S' b n, Perc.spLoop env fuel S = .ok (S', b) ∧ SpRun env L S S' (ids.take i) ((ids.drop i).take n) b ∧
      i + n ≤ ids.length ∧ (b = false → i + n = ids.length) := by
  induction fuel with
  | zero => intro S i _ H h; have := H.le; omega
  | succ fuel ih =>
    intro S i T H hf
    obtain ⟨A, M, hA⟩ := T.reachable
    by_cases hi : i < ids.length
    · have hk : ids[i]? = some ids[i] := List.getElem?_eq_getElem hi
      obtain ⟨S1, p1, hfl, hsel, H1⟩ := H.place (v := .sp) M hA.inv rfl hk (not_mem_take (n := ids.length) (by rw [List.take_length]; exact hnd) hi hk) ⟨0, 0⟩
      have htake : ids.take i ++ [ids[i]] = ids.take (i + 1) := by rw [List.take_add_one, hk]; rfl
      have hdrop : ids.drop i = ids[i] :: ids.drop (i + 1) := List.drop_eq_getElem_cons hi
      rcases spLoop_round T p1 fuel with ⟨h, _⟩ | ⟨_, S2, k, _, hk', T2, hocc, ⟨w, hd⟩, hsp, ⟨_, e, R⟩ | ⟨hn, e⟩⟩
      · cases h
      · refine ⟨_, true, 1, e, ?_, hi, fun h => by cases h⟩
        obtain rfl : ids[i] = k := Option.some.inj (hsel.symm.trans hk')
        rw [hdrop]; exact R
      · obtain rfl : ids[i] = k := Option.some.inj (hsel.symm.trans hk')
        obtain ⟨A1, hst, M1⟩ := placeOneSite_steps M hA.inv p1
        obtain ⟨K, _, _⟩ := detectWrapping_keep M1 (hA.steps hst).inv hd
        have hmi := (detectWrapping_steps M1 (hA.steps hst).inv hd).1.maxIter
        have H2 : L0Ready L S2 ids (i + 1) := H1.congr K.siteIds hmi K.currentIdx hocc
        rw [htake] at T2
        obtain ⟨S', b, n, e', R, h1, h2⟩ := ih T2 H2 (by omega)
        refine ⟨S', b, n + 1, by rw [e, e'], ?_, by omega, fun hb => by have := h2 hb; omega⟩
        rw [hdrop, List.take_succ_cons]
        exact SpRun.cons hn hsp (by rw [htake]; exact R)
    · obtain rfl : i = ids.length := by have := H.le; omega
      obtain ⟨S1, p1, _⟩ := H.done (env := env) (v := .sp) rfl ⟨0, 0⟩
      rcases spLoop_round T p1 fuel with ⟨_, e, R⟩ | ⟨h, _⟩
      · exact ⟨S1, false, 0, e, by simpa using R, by omega, fun _ => by omega⟩
      · cases h

end SqPerc
