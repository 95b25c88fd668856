import Verif.Props.Ensemble
import Verif.Props.L1L2
import Verif.Props.Demo
/-
Property C59: the cross-check file and its replay.
-/
namespace SqPerc

variable {α : Type} {L : Nat} {env : Env α} {v : Variant} {S S1 S' : Perc α} {A : Abs α} {d : Draw} {seq : List Nat}

/-! ### L0 runs do not use random numbers -/

theorem runLoop_draws (hv : v.plain = true) (fuel : Nat) : ∀ (ds ds' : Nat → Draw) (S : Perc α),
    Perc.runLoop env v fuel ds S = Perc.runLoop env v fuel ds' S := by
  induction fuel with
  | zero => intro _ _ _; rfl
  | succ fuel ih =>
    intro ds ds' S
    have e : S.placeOneSite env v (ds 0) = S.placeOneSite env v (ds' 0) := by
      simp only [Perc.placeOneSite, selectSite_plain hv]
    simp only [Perc.runLoop, e]
    have e2 : ∀ T : Perc α, Perc.runLoop env v fuel (fun i => ds (i + 1)) T = Perc.runLoop env v fuel (fun i => ds' (i + 1)) T := fun T => ih _ _ T
    simp only [e2]

theorem runOnce_draws (hv : v.plain = true) {fuel fuel' : Nat} {ds ds' : Nat → Draw} {S R R' : Perc α}
    (h : S.runOnce env v fuel ds = .ok R) (h' : S.runOnce env v fuel' ds' = .ok R') : R = R' := by
  simp only [Perc.runOnce] at h h'
  cases h1 : Perc.runLoop env v fuel ds S with
  | error e => rw [h1] at h; cases h
  | ok T =>
    cases h2 : Perc.runLoop env v fuel' ds' S with
    | error e => rw [h2] at h'; cases h'
    | ok T' =>
      rw [h1] at h; rw [h2] at h'
      have a := runLoop_fuel (m := fuel') fuel h1
      have b := runLoop_fuel (m := fuel) fuel' h2
      rw [runLoop_draws hv _ ds ds', Nat.add_comm, b] at a
      rw [← Except.ok.inj h, ← Except.ok.inj h', Except.ok.inj a]

/-- `get_index_sequence` of the classes that do not override it. -/
theorem indexSequence_ids (h : Reach env v L S) (hv : v ≠ .l1) :
    S.getIndexSequence v = .ok ((S.siteIds.map (rowCol L)).map fun p => [p.1, p.2]) := by
  obtain ⟨_, A, M, hA⟩ := h.sim
  have : S.getIndexSequence v = (S.siteIds.mapM fun id => do
      let st ← (mkLat L A.V).getSite id
      return [st.index.c1, st.index.c2]) := by
    simp only [Perc.getIndexSequence, M.lat]
  rw [this]
  exact mapM_index _ h.ids.1

/-- The object that `set_custome_site_index_list` makes from a new one. -/
theorem new_setIndices {N : Perc α} {ctor draws : Nat → Nat} (hN : Perc.new env L ctor = .ok N) {q : List Nat} (hq : q ≠ []) (hlt : ∀ k ∈ q, k < L * L) :
    N.setCustomIndices ((q.map (rowCol L)).map fun p => [p.1, p.2]) false draws =
      .ok { N with siteIds := q, modeCustom := true, doShuffle := false, maxIter := q.length } := by
  have SN : Start env .l0 L N := .new hN
  obtain ⟨_, A, M, hA⟩ := SN.reach.sim
  rw [C31_encodes, encode_pairs SN.reach, rowCol_encode, setIds_off M (by simpa using hq) ?_ draws, map_toNat_ofNat, List.length_map]
  intro i hi
  obtain ⟨k, hk, rfl⟩ := List.mem_map.1 hi
  exact ⟨Int.natCast_nonneg k, show (k : Int) < (L : Int) * L by exact_mod_cast hlt k hk⟩

/-- A run over a list with a repeated id raises AssertionError. -/
theorem L0Ready.runLoop_repeat {ids : List Nat} (hv : v.plain = true) (hnd : ¬ ids.Nodup) (fuel : Nat) : ∀ {S : Perc α} {i : Nat} (ds : Nat → Draw),
    L0Ready L S ids i → Trace env v L S (ids.take i) → ids.length - i < fuel →
    Perc.runLoop env v fuel ds S = .error .assertionError := by
  induction fuel with
  | zero => intro S i ds _ _ h; omega
  | succ fuel ih =>
    intro S i ds H T hf
    obtain ⟨_, A, M, hA, _⟩ := T.sim
    simp only [Perc.runLoop]
    by_cases hi : i < ids.length
    · have hk := List.getElem?_eq_getElem hi
      by_cases hin : ids[i] ∈ ids.take i
      · rw [H.repeat M hA.inv hv hk hin (ds 0)]; rfl
      · obtain ⟨S1, p1, hfl, hsel1, R⟩ := H.place M hA.inv hv hk hin (ds 0)
        obtain ⟨A1, hst, M1⟩ := placeOneSite_steps M hA.inv p1
        have hA1 := hA.steps hst
        obtain ⟨S2, w, hd⟩ := detectWrapping_ok M1 hA1.inv (by rw [hsel1]; simp)
        obtain ⟨haux2, _, _, A2, hst2, M2, _⟩ := detectWrapping_steps M1 hA1.inv hd
        obtain ⟨K, hocc, _⟩ := detectWrapping_keep M1 hA1.inv hd
        have T2 := T.placed p1 hfl hsel1 hd
        obtain ⟨S3, hr⟩ := record_progress M2 (hA1.steps hst2)
        have R3 : L0Ready L S3 ids (i + 1) := by
          obtain ⟨p, _, rfl⟩ := record_ok hr
          exact R.congr K.siteIds haux2.maxIter K.currentIdx hocc
        have et : ids.take i ++ [ids[i]] = ids.take (i + 1) := by rw [List.take_add_one, hk]; rfl
        have q1 := ih (fun j => ds (j + 1)) R3 (et ▸ T2.record hr) (by omega)
        rw [p1]
        show (if S1.selectionFlag = some .success then _ else _) = _
        rw [if_pos hfl, hd]
        show (S2.record env >>= _) = _
        rw [hr]
        exact q1
    · have hie : i = ids.length := Nat.le_antisymm H.le (by omega)
      rw [hie, List.take_length] at T
      exact absurd T.seq_nodup hnd

/-! ### The candidate pool of L1 and L2 -/

theorem dropAt_pool {rnd : Nat} (hc : S.currentIdx < S.siteIds.length) (hr : S.currentIdx ≤ rnd) (hr' : rnd < S.siteIds.length) :
    dropAt S rnd = S.siteIds ∨ ¬ (dropAt S rnd).Nodup := by
  unfold dropAt
  rw [List.getElem?_eq_getElem hc, Option.getD_some]
  rcases Nat.eq_or_lt_of_le hr with e | e
  · left; subst e; exact List.set_getElem_self hc
  · right
    intro hnd
    have h1 : (S.siteIds.set rnd S.siteIds[S.currentIdx])[S.currentIdx]'(by simpa using hc) = S.siteIds[S.currentIdx] :=
      List.getElem_set_ne (by omega) _
    have h2 : (S.siteIds.set rnd S.siteIds[S.currentIdx])[rnd]'(by simpa using hr') = S.siteIds[S.currentIdx] :=
      List.getElem_set_self _
    have := (List.Nodup.getElem_inj_iff hnd).1 (h1.trans h2.symm)
    omega

/-- A selection leaves the list of ids as it is, or makes an id appear twice. -/
theorem selectSite_pool {f : SelectionState} (M : Sim env L S A) (h : S.selectSite v d = .ok (S1, f)) :
    S1.siteIds.length = S.siteIds.length ∧ (S1.siteIds = S.siteIds ∨ ¬ S1.siteIds.Nodup) := by
  have fin : ∀ {T T' : Perc α} {j : Nat}, T.finishSelect j = .ok (T', f) → T'.siteIds = T.siteIds := fun h => (finishSelect_fields h).2.2.2.2.2.2.1
  have same : ∀ {l l' : List Nat}, l = l' → l.length = l'.length ∧ (l = l' ∨ ¬ l.Nodup) := by
    rintro l _ rfl; exact ⟨rfl, .inl rfl⟩
  have drop : ∀ {a : Nat}, S.currentIdx < S.siteIds.length → (dropAt S (S.currentIdx + a % (S.siteIds.length - S.currentIdx))).length = S.siteIds.length ∧
      (dropAt S (S.currentIdx + a % (S.siteIds.length - S.currentIdx)) = S.siteIds ∨ ¬ (dropAt S (S.currentIdx + a % (S.siteIds.length - S.currentIdx))).Nodup) := by
    intro a h
    have := Nat.mod_lt a (by omega : 0 < S.siteIds.length - S.currentIdx)
    exact ⟨by unfold dropAt; simp, dropAt_pool h (by omega) (by omega)⟩
  cases v with
  | l0 => exact same (selectL0_siteIds h)
  | sp => exact same (selectL0_siteIds h)
  | l1 =>
    simp only [Perc.selectSite] at h
    rcases selectL1_inv M.lat h with ⟨_, h1⟩ | ⟨h1, h2, x, hx, hxl⟩
    · exact same (by rw [(Prod.mk.inj h1).1])
    · rw [selectL1_eq M.lat d h1 h2 rfl hx hxl] at h
      split at h
      · split at h
        · split at h
          · cases h
          · rw [← (Prod.mk.inj (Except.ok.inj h)).1]
            simp only [l1Fail]
            split
            · exact drop h2
            · exact same rfl
        · (have e := fin h; exact same e)
      · (have e := fin h; exact same e)
  | l2 =>
    simp only [Perc.selectSite] at h
    rcases selectL2_inv M.lat h with ⟨_, h1⟩ | ⟨h1, h2, x, hx, hxl⟩
    · exact same (by rw [(Prod.mk.inj h1).1])
    · rw [selectL2_eq M.lat d h1 h2 rfl hx hxl] at h
      split at h
      · split at h
        · split at h
          · cases h
          · split at h
            · split at h
              · cases h
              · rw [← (Prod.mk.inj (Except.ok.inj h)).1]
                simp only [l2Fail]
                split
                · exact drop h2
                · exact same rfl
            · (have e := fin h; exact same e)
        · (have e := fin h; exact same e)
      · (have e := fin h; exact same e)

theorem runLoop_pool (fuel : Nat) : ∀ {ds : Nat → Draw} {S S' : Perc α} {seq : List Nat}, Trace env v L S seq →
    Perc.runLoop env v fuel ds S = .ok S' → S'.siteIds.length = S.siteIds.length ∧ (S'.siteIds = S.siteIds ∨ ¬ S'.siteIds.Nodup) := by
  induction fuel with
  | zero => intro ds S S' seq _ h; cases h
  | succ fuel ih =>
    intro ds S S' seq T h
    simp only [Perc.runLoop] at h
    obtain ⟨_, A, M, hA, _⟩ := T.sim
    cases hp : S.placeOneSite env v (ds 0) with
    | error e => rw [hp] at h; cases h
    | ok res =>
      obtain ⟨S1, b⟩ := res
      rw [hp] at h
      obtain ⟨A1, hst, M1⟩ := placeOneSite_steps M hA.inv hp
      have p1 : S1.siteIds.length = S.siteIds.length ∧ (S1.siteIds = S.siteIds ∨ ¬ S1.siteIds.Nodup) := by
        obtain ⟨S0, f, h1, _, _, K⟩ := placeOneSite_select M hA.inv hp
        rw [K.siteIds]
        exact selectSite_pool M h1
      have comb : ∀ {l : List Nat}, l.length = S1.siteIds.length ∧ (l = S1.siteIds ∨ ¬ l.Nodup) →
          l.length = S.siteIds.length ∧ (l = S.siteIds ∨ ¬ l.Nodup) := by
        rintro l ⟨h1, h2⟩
        refine ⟨h1.trans p1.1, ?_⟩
        rcases h2 with rfl | h2
        · exact p1.2
        · exact .inr h2
      cases b with
      | false =>
        rw [← Except.ok.inj h]; exact p1
      | true =>
        replace h : (if S1.selectionFlag = some .success then _ else _) = _ := h
        split at h
        · next hf =>
          cases hd : S1.detectWrapping with
          | error e => rw [hd] at h; cases h
          | ok res =>
            obtain ⟨S2, w⟩ := res
            rw [hd] at h
            obtain ⟨k, _, _, T2⟩ := T.place hp hf hd
            obtain ⟨K, _⟩ := detectWrapping_keep M1 (hA.inv.steps hst) hd
            replace h : (S2.record env >>= _) = _ := h
            cases hr : S2.record env with
            | error e => rw [hr] at h; cases h
            | ok S3 =>
              rw [hr] at h
              have e3 : S3.siteIds = S1.siteIds := by
                obtain ⟨p, _, rfl⟩ := record_ok hr
                exact K.siteIds
              have := ih (T2.record hr) h
              rw [e3] at this
              exact comb this
        · next hf => exact comb (ih (T.skipped hp hf) h)

/-! ### C59 -/

/-- The state after `cls(length=L); reset()`. -/
theorem new_reset (hL : 0 < L) (ctor sh : Nat → Nat) : ∃ S0 S1, Perc.new env L ctor = .ok S0 ∧ S0.reset env v sh = .ok S1 ∧ DefReach env v L S0 ∧
    Fresh env v L S1 ∧ S1.entropyList = [] ∧ S1.orderWrapList = [] ∧ S1.orderLargestList = [] := by
  obtain ⟨S0, e0, F0⟩ := fresh_exists env v hL ctor
  obtain ⟨S1, e1⟩ := F0.defReach.reach.reset_total sh
  obtain ⟨e, _⟩ := reset_new F0.defReach.reach e1 e0
  obtain ⟨_, rev, hS0, _⟩ := new_inv e0
  refine ⟨S0, S1, e0, e1, F0.defReach, .reset F0.defReach e1, ?_, ?_, ?_⟩ <;> rw [e, hS0] <;> rfl

/-- What `single_realization` does before writing the file. -/
theorem single_run (env : Env α) (hL : 0 < L) (ctor : Nat → Nat) {r : RunDraws} (hv : v ≠ .sp) (hf : initBudget L v < r.fuel) :
    ∃ S0 S1 S2 seq, Perc.new env L ctor = .ok S0 ∧ S0.reset env v r.shuffle = .ok S1 ∧ S1.runOnce env v r.fuel r.steps = .ok S2 ∧
    DefReach env v L S0 ∧ Fresh env v L S1 ∧ Trace env v L S2 seq ∧ seq.Perm (List.range (L * L)) ∧ Reach env v L S2 ∧
    (∃ es : List α, S2.entropyList = es ∧ es.length = L * L ∧
        ∀ f : List Nat → α, (∀ T q, Trace env v L T q → T.entropy = f q) → es = (stages [] seq).map f) ∧
    S2.orderWrapList = (stages [] seq).map (ordW env L) ∧ S2.orderLargestList = (stages [] seq).map (ordL env L) ∧
    S2.orderLargestList.length = L * L ∧ S2.orderWrapList.length = L * L ∧
    ∀ idxs, S2.getIndexSequence v = .ok idxs → singleRealization env v L ctor r = .ok (crossFile env S2 S2.siteIds idxs) := by
  obtain ⟨S0, S1, e0, e1, D, F, l1, l2, l3⟩ := new_reset (env := env) (v := v) hL ctor r.shuffle
  obtain ⟨S2, seq, x1, x2, x3, _, _, _, ⟨es, x4, x5, x5'⟩, x6, x7⟩ := F.run (fuel := r.fuel) (ds := r.steps) hf
  rw [l1, List.nil_append] at x4
  rw [l2, List.nil_append] at x6
  rw [l3, List.nil_append] at x7
  have hl : (stages [] seq).length = L * L := by rw [stages_length, x3.length_eq, List.length_range]
  refine ⟨S0, S1, S2, seq, e0, e1, x1, D, F, x2, x3, ?_, ⟨es, x4, x5, fun f hf => forall₂_eq_map (x5' _ hf)⟩, x6, x7, by rw [x7, List.length_map, hl],
    by rw [x6, List.length_map, hl], ?_⟩
  · cases v with
    | sp => exact absurd rfl hv
    | l0 => exact .step (.runOnce r.fuel r.steps) F.defReach.reach x1
    | l1 => exact .step (.runOnce r.fuel r.steps) F.defReach.reach x1
    | l2 => exact .step (.runOnce r.fuel r.steps) F.defReach.reach x1
  · intro idxs hi
    have : S1.runOnceV env v r.fuel r.steps = .ok S2 := by
      cases v with
      | sp => exact absurd rfl hv
      | l0 => exact x1
      | l1 => exact x1
      | l2 => exact x1
    simp only [singleRealization, realisation, e0, e1, bind, Except.bind, this, hi]
    rfl

theorem range_ne (hL : 0 < L) {q : List Nat} (h : q.length = L * L) : q ≠ [] := by
  rintro rfl
  have := Nat.mul_pos hL hL
  rw [← h] at this
  simp at this

/-- C59: the file written by `single_realization(SitePercolationL0, L)` can be replayed exactly, in any arithmetic: it records every site once, the
index sequence is the id sequence in (row, column) form, each list has one entry per site, and a new L0 object given the index sequence
computes the very same critical values and lists. -/
theorem C59_replay_exact (env : Env α) (hL : 0 < L) (ctor : Nat → Nat) {r : RunDraws} (hf : L * L < r.fuel) : ∃ f : CrossFile α,
    singleRealization env .l0 L ctor r = .ok f ∧ f.siteIdSequence.Perm (List.range (L * L)) ∧
    f.siteIndexSequence = (f.siteIdSequence.map (rowCol L)).map (fun p => [p.1, p.2]) ∧
    f.entropyList.length = L * L ∧ f.orderLargestList.length = L * L ∧ f.orderWrappingList.length = L * L ∧
    ∀ (ctor' draws' : Nat → Nat) (fuel' : Nat) (ds' : Nat → Draw), L * L < fuel' → crossReplay env L ctor' draws' f fuel' ds' = .ok f := by
  obtain ⟨S0, S1, S2, seq, e0, e1, e2, D, F, _, _, hR, ⟨es, x4, x5, _⟩, _, _, x6, x7, hsr⟩ :=
    single_run (v := .l0) env hL ctor (r := r) (by decide) (by show (L : Int) * L < r.fuel; exact_mod_cast hf)
  obtain ⟨S2', e2', _, i2, _⟩ := C24_run_once rfl F hf r.steps
  rw [← Except.ok.inj (e2.symm.trans e2')] at i2
  obtain ⟨hp, _⟩ := F.perm rfl
  have hlen : S1.siteIds.length = L * L := by rw [hp.length_eq, List.length_range]
  have hne := range_ne hL hlen
  have hlt : ∀ k ∈ S1.siteIds, k < L * L := F.defReach.reach.ids.1
  have hidx := indexSequence_ids hR (by decide)
  refine ⟨_, hsr _ hidx, ?_, rfl, ?_, x6, x7, ?_⟩
  · show S2.siteIds.Perm _
    rw [i2]; exact hp
  · show S2.entropyList.length = _
    rw [x4]; exact x5
  · intro ctor' draws' fuel' ds' hf'
    obtain ⟨N, eN, FN⟩ := fresh_exists env .l0 hL ctor'
    have eN1 := new_setIndices (draws := draws') eN hne hlt
    obtain ⟨N1, hN1⟩ : ∃ N1, N1 = { N with siteIds := S1.siteIds, modeCustom := true, doShuffle := false, maxIter := S1.siteIds.length } := ⟨_, rfl⟩
    rw [← hN1] at eN1
    have hput : S1 = N1.put S1 := by
      obtain ⟨e, _⟩ := reset_new D.reach e1 eN
      have hm : S1.maxIter = S1.siteIds.length := by rw [hlen]; exact F.defReach.live.maxIter
      rw [hm] at e
      conv => lhs; rw [e]
      rw [hN1]; rfl
    have hag := runOnceV_agree (env := env) (v := .l0) hput r.fuel r.steps
    rw [show S1.runOnceV env .l0 r.fuel r.steps = .ok S2 from e2] at hag
    cases hn : N1.runOnceV env .l0 r.fuel r.steps with
    | error x => rw [hn] at hag; exact absurd hag (by simp [PyRel])
    | ok N2 =>
      rw [hn] at hag
      obtain ⟨h1, _⟩ := hag
      have hn' : N1.runOnce env .l0 r.fuel r.steps = .ok N2 := hn
      obtain ⟨N1', N2', q, y1, y2, _, _⟩ := C30_run_once (v := .l0) (env := env) rfl (Start.new eN) (ids := S1.siteIds.map Int.ofNat)
        (by simpa using hne) (by
          intro i hi
          obtain ⟨k, hk, rfl⟩ := List.mem_map.1 hi
          exact ⟨Int.natCast_nonneg k, show (k : Int) < (L : Int) * L by exact_mod_cast hlt k hk⟩)
        ((hp.nodup_iff.2 List.nodup_range).map Int.ofNat_injective) draws' (fuel := fuel') (by rw [List.length_map, hlen]; exact hf') ds'
      have e3 : N1' = N1 := by
        rw [C31_encodes, encode_pairs (Start.new (v := .l0) eN).reach, rowCol_encode] at eN1
        exact Except.ok.inj (y1.symm.trans eN1)
      rw [e3] at y2
      have e4 := runOnce_draws (v := .l0) rfl hn' y2
      rw [← e4] at y2
      obtain ⟨T, rfl⟩ : ∃ T, S2 = N2.put T := ⟨S2, h1⟩
      rw [i2]
      simp only [crossReplay, crossFile, eN, bind, Except.bind, eN1, y2]
      rfl

/-- What the replay of a complete order computes. -/
theorem replay_rel (env : Env α) (hL : 0 < L) {q : List Nat} (hq : q.Perm (List.range (L * L))) {f : CrossFile α}
    (hf : f.siteIndexSequence = (q.map (rowCol L)).map (fun p => [p.1, p.2])) (ctor draws : Nat → Nat) {fuel : Nat} (hfuel : L * L < fuel)
    (ds : Nat → Draw) : ∃ N, crossReplay env L ctor draws f fuel ds = .ok (crossFile env N f.siteIdSequence f.siteIndexSequence) ∧
    Trace env .l0 L N q ∧ (∃ es : List α, N.entropyList = es ∧ es.length = L * L ∧
        ∀ g : List Nat → α, (∀ T q, Trace env .l0 L T q → T.entropy = g q) → es = (stages [] q).map g) ∧
    N.orderWrapList = (stages [] q).map (ordW env L) ∧ N.orderLargestList = (stages [] q).map (ordL env L) ∧
    ∀ P : α → List Nat → Prop, (∀ T q, Trace env .l0 L T q → P T.entropy q) → List.Forall₂ P N.entropyList (stages [] q) := by
  have hlen : q.length = L * L := by rw [hq.length_eq, List.length_range]
  have hlt : ∀ k ∈ q, k < L * L := fun k hk => List.mem_range.1 (hq.mem_iff.1 hk)
  obtain ⟨N, eN, FN⟩ := fresh_exists env .l0 hL ctor
  have eN1 := new_setIndices (draws := draws) eN (range_ne hL hlen) hlt
  obtain ⟨N1, e1, R, T1, _⟩ := (Start.new (v := .l0) eN).setIds (ids := q.map Int.ofNat) (by simpa using range_ne hL hlen) (by
    intro i hi
    obtain ⟨k, hk, rfl⟩ := List.mem_map.1 hi
    exact ⟨Int.natCast_nonneg k, show (k : Int) < (L : Int) * L by exact_mod_cast hlt k hk⟩) draws
  rw [map_toNat_ofNat] at R
  obtain ⟨N2, e2, T2, _, C⟩ := R.runLoop rfl (hq.nodup_iff.2 List.nodup_range) fuel ds T1 (by omega)
  have e3 : { N with siteIds := q, modeCustom := true, doShuffle := false, maxIter := q.length } = N1 := by
    rw [C31_encodes, encode_pairs (Start.new (v := .l0) eN).reach, rowCol_encode] at eN1
    exact Except.ok.inj (eN1.symm.trans e1)
  obtain ⟨l1, l2, l3⟩ : N1.entropyList = [] ∧ N1.orderWrapList = [] ∧ N1.orderLargestList = [] := by
    obtain ⟨_, rev, hN, _⟩ := new_inv eN
    rw [← e3, hN]; exact ⟨rfl, rfl, rfl⟩
  rw [e3] at eN1
  obtain ⟨es, c1, c2, c3⟩ := C.entropy
  have c4 := C.ordWrap
  have c5 := C.ordLargest
  rw [l1, List.nil_append] at c1
  rw [l2, List.nil_append] at c4
  rw [l3, List.nil_append] at c5
  refine ⟨{ N2 with firstRun := false }, ?_, T2.data false _ _ _ _ _, ⟨es, c1, by rw [c2]; simpa using hlen, c3⟩, c4, c5, fun P hP => ?_⟩
  rotate_left
  · obtain ⟨es', r1, r2⟩ := C.entropyRel P hP
    rw [l1, List.nil_append] at r1
    rw [show ({ N2 with firstRun := false } : Perc α).entropyList = es' from r1]
    exact r2
  have hrun : N1.runOnce env .l0 fuel ds = .ok { N2 with firstRun := false } := by
    simp only [Perc.runOnce]; rw [e2]; rfl
  simp only [crossReplay, hf, eN, eN1, bind, Except.bind, hrun]
  rfl

theorem replay_order (env : Env α) (hL : 0 < L) {q : List Nat} (hq : q.Perm (List.range (L * L))) {f : CrossFile α}
    (hf : f.siteIndexSequence = (q.map (rowCol L)).map (fun p => [p.1, p.2])) (ctor draws : Nat → Nat) {fuel : Nat} (hfuel : L * L < fuel)
    (ds : Nat → Draw) : ∃ N, crossReplay env L ctor draws f fuel ds = .ok (crossFile env N f.siteIdSequence f.siteIndexSequence) ∧
    Trace env .l0 L N q ∧ (∃ es : List α, N.entropyList = es ∧ es.length = L * L ∧
        ∀ g : List Nat → α, (∀ T q, Trace env .l0 L T q → T.entropy = g q) → es = (stages [] q).map g) ∧
    N.orderWrapList = (stages [] q).map (ordW env L) ∧ N.orderLargestList = (stages [] q).map (ordL env L) := by
  obtain ⟨N, h1, h2, h3, h4, h5, _⟩ := replay_rel env hL hq hf ctor draws hfuel ds
  exact ⟨N, h1, h2, h3, h4, h5⟩

/-- The site ids recorded for L1 and L2. -/
theorem pool_left {r : RunDraws} {ctor : Nat → Nat} {S0 S2 : Perc α} (hv : v = .l1 ∨ v = .l2) (e0 : Perc.new env L ctor = .ok S0)
    (e1 : S0.reset env v r.shuffle = .ok S1) (F : Fresh env v L S1) (e2 : S1.runOnce env v r.fuel r.steps = .ok S2) :
    S2.siteIds = List.range (L * L) ∨ S2.siteIds.length = L * L ∧ ¬ S2.siteIds.Nodup := by
  have hids : S1.siteIds = List.range (L * L) := by
    obtain ⟨_, A, M, _⟩ := (Reach.new (v := v) e0).sim
    simp only [Perc.reset] at e1
    cases hb : S0.resetBase r.shuffle with
    | error e => rw [hb] at e1; cases e1
    | ok S1' =>
      rw [hb] at e1
      have hl : S1'.lat.length ^ 2 = L * L := by
        obtain ⟨_, _, rfl⟩ := resetBase_ok M.lat hb
        show (mkLat L LV.init).length ^ 2 = _
        rw [mkLat_length, Nat.pow_two]
      rw [← hl]
      rcases hv with rfl | rfl <;> rw [← Except.ok.inj e1]
  simp only [Perc.runOnce] at e2
  cases hr : Perc.runLoop env v r.fuel r.steps S1 with
  | error e => rw [hr] at e2; cases e2
  | ok S3 =>
    rw [hr] at e2
    obtain ⟨p1, p2⟩ := runLoop_pool _ F.trace hr
    rw [← Except.ok.inj e2]
    show S3.siteIds = _ ∨ S3.siteIds.length = _ ∧ ¬ S3.siteIds.Nodup
    rw [hids] at p1 p2
    rw [List.length_range] at p1
    rcases p2 with h | h
    · exact .inl h
    · exact .inr ⟨p1, h⟩

theorem replay_L1 {so so' : SetOrder} {ar : Arith α} (hL : 0 < L) (ctor : Nat → Nat) {r : RunDraws} (hf : 5 * (L * L) < r.fuel) :
    ∃ (f : CrossFile α) (seq : List Nat), singleRealization ⟨so, ar⟩ .l1 L ctor r = .ok f ∧ seq.Perm (List.range (L * L)) ∧
    f.siteIndexSequence = (seq.map (rowCol L)).map (fun p => [p.1, p.2]) ∧
    f.entropyList.length = L * L ∧ f.orderLargestList.length = L * L ∧ f.orderWrappingList.length = L * L ∧
    (f.siteIdSequence = List.range (L * L) ∨ f.siteIdSequence.length = L * L ∧ ¬ f.siteIdSequence.Nodup) ∧
    ∀ (ctor' draws' : Nat → Nat) (fuel' : Nat) (ds' : Nat → Draw), L * L < fuel' → ∃ es : List α,
      crossReplay ⟨so', ar⟩ L ctor' draws' f fuel' ds' = .ok { f with entropyList := es } ∧ es.length = L * L ∧
      ∀ g : List Nat → α, (∀ T q, Trace ⟨so, ar⟩ .l1 L T q → T.entropy = g q) → (∀ T q, Trace ⟨so', ar⟩ .l0 L T q → T.entropy = g q) → es = f.entropyList := by
  obtain ⟨S0, S1, S2, seq, e0, e1, e2, D, F, T, hperm, hR, ⟨es, x4, x5, x5'⟩, o1, o2, x6, x7, hsr⟩ :=
    single_run (v := .l1) ⟨so, ar⟩ hL ctor (r := r) (by decide) (by show (5 * (L * L) : Int) < r.fuel; exact_mod_cast hf)
  refine ⟨_, seq, hsr _ (C38_sequence T).1, hperm, rfl, ?_, x6, x7, ?_, ?_⟩
  · show S2.entropyList.length = _
    rw [x4]; exact x5
  · exact pool_left (.inl rfl) e0 e1 F e2
  · intro ctor' draws' fuel' ds' hf'
    obtain ⟨N, h1, h2, ⟨es', h3, h4, h5⟩, h6, h7⟩ := replay_order ⟨so', ar⟩ hL hperm (f := crossFile ⟨so, ar⟩ S2 S2.siteIds
      ((seq.map (rowCol L)).map fun p => [p.1, p.2])) rfl ctor' draws' hf' ds'
    refine ⟨es', ?_, h4, ?_⟩
    · rw [h1]
      obtain ⟨_, _, _, w1, w2, w3, _⟩ := C27_observables T h2
      simp only [crossFile, w1, w2, w3, h3, h6, h7, o1, o2]
      rfl
    · intro g g1 g2
      show es' = S2.entropyList
      rw [h5 g g2, x4, x5' g g1]

/-- C59: for the L1 class the recorded index sequence is the placement order: it can be replayed by L0, also with other set iteration
orders, and gives the same critical values and order parameters, in any arithmetic.  The recorded id sequence, however, is not the
placement order but what is left of the candidate pool: the ids in increasing order, or a list with repeated ids. -/
theorem C59_replay_L1 {so so' : SetOrder} {ar : Arith α} (hL : 0 < L) (ctor : Nat → Nat) {r : RunDraws} (hf : 5 * (L * L) < r.fuel) :
    ∃ (f : CrossFile α) (seq : List Nat), singleRealization ⟨so, ar⟩ .l1 L ctor r = .ok f ∧ seq.Perm (List.range (L * L)) ∧
    f.siteIndexSequence = (seq.map (rowCol L)).map (fun p => [p.1, p.2]) ∧
    f.entropyList.length = L * L ∧ f.orderLargestList.length = L * L ∧ f.orderWrappingList.length = L * L ∧
    (f.siteIdSequence = List.range (L * L) ∨ f.siteIdSequence.length = L * L ∧ ¬ f.siteIdSequence.Nodup) ∧
    ∀ (ctor' draws' : Nat → Nat) (fuel' : Nat) (ds' : Nat → Draw), L * L < fuel' → ∃ es : List α,
      crossReplay ⟨so', ar⟩ L ctor' draws' f fuel' ds' = .ok { f with entropyList := es } ∧ es.length = L * L := by
  obtain ⟨f, seq, h1, h2, h3, h4, h5, h6, h7, h8⟩ := replay_L1 (so := so) (so' := so') (ar := ar) hL ctor hf
  refine ⟨f, seq, h1, h2, h3, h4, h5, h6, h7, fun c d fu ds hfu => ?_⟩
  obtain ⟨es, a, b, _⟩ := h8 c d fu ds hfu
  exact ⟨es, a, b⟩

/-- C59: in exact arithmetic the replay of an L1 file gives the recorded entropies as well. -/
theorem C59_replay_L1_entropy {so so' : SetOrder} (hL : 0 < L) (ctor : Nat → Nat) {r : RunDraws} (hf : 5 * (L * L) < r.fuel) :
    ∃ f : CrossFile ℝ, singleRealization (realEnv so) .l1 L ctor r = .ok f ∧
    ∀ (ctor' draws' : Nat → Nat) (fuel' : Nat) (ds' : Nat → Draw), L * L < fuel' → crossReplay (realEnv so') L ctor' draws' f fuel' ds' = .ok f := by
  obtain ⟨f, seq, h1, _, _, _, _, _, _, h8⟩ := replay_L1 (so := so) (so' := so') (ar := (realEnv so).ar) hL ctor hf
  refine ⟨f, h1, fun c d fu ds hfu => ?_⟩
  obtain ⟨es, a, _, b⟩ := h8 c d fu ds hfu
  rw [b (fun q => shannon L (· ∈ q)) (fun T q h => Trace.entropy (so := so) h) (fun T q h => Trace.entropy (so := so') h)] at a
  exact a

/-- C59: for the L2 class neither recorded sequence is the placement order: both are what is left of the candidate pool, i.e. either the sites
row by row, or a list with a repeated site; in the latter case the replay raises AssertionError. -/
theorem C59_L2_not_replayable (env : Env α) (hL : 0 < L) (ctor : Nat → Nat) {r : RunDraws} (hf : 5 * (L * L) < r.fuel) : ∃ f : CrossFile α,
    singleRealization env .l2 L ctor r = .ok f ∧ f.siteIndexSequence = (f.siteIdSequence.map (rowCol L)).map (fun p => [p.1, p.2]) ∧
    (f.siteIdSequence = List.range (L * L) ∨ f.siteIdSequence.length = L * L ∧ ¬ f.siteIdSequence.Nodup ∧
      ∀ (ctor' draws' : Nat → Nat) (fuel' : Nat) (ds' : Nat → Draw), L * L < fuel' →
        crossReplay env L ctor' draws' f fuel' ds' = .error .assertionError) := by
  obtain ⟨S0, S1, S2, seq, e0, e1, e2, D, F, T, hperm, hR, _, _, _, _, _, hsr⟩ :=
    single_run (v := .l2) env hL ctor (r := r) (by decide) (by show (5 * (L * L) : Int) < r.fuel; exact_mod_cast hf)
  refine ⟨_, hsr _ (indexSequence_ids hR (by decide)), rfl, ?_⟩
  rcases pool_left (.inr rfl) e0 e1 F e2 with h | ⟨h, hd⟩
  · exact .inl h
  · refine .inr ⟨h, hd, fun ctor' draws' fuel' ds' hf' => ?_⟩
    have hlt := hR.ids.1
    obtain ⟨N, eN, FN⟩ := fresh_exists env .l0 hL ctor'
    have eN1 := new_setIndices (draws := draws') eN (range_ne hL h) hlt
    obtain ⟨N1, y1, R, T1, _⟩ := (Start.new (v := .l0) eN).setIds (ids := S2.siteIds.map Int.ofNat) (by simpa using range_ne hL h) (by
      intro i hi
      obtain ⟨k, hk, rfl⟩ := List.mem_map.1 hi
      exact ⟨Int.natCast_nonneg k, show (k : Int) < (L : Int) * L by exact_mod_cast hlt k hk⟩) draws'
    rw [map_toNat_ofNat] at R
    have e3 : { N with siteIds := S2.siteIds, modeCustom := true, doShuffle := false, maxIter := S2.siteIds.length } = N1 := by
      have eN2 := eN1
      rw [C31_encodes, encode_pairs (Start.new (v := .l0) eN).reach, rowCol_encode] at eN2
      exact Except.ok.inj (eN2.symm.trans y1)
    rw [e3] at eN1
    have := R.runLoop_repeat rfl hd fuel' ds' T1 (by omega)
    simp only [crossReplay, crossFile, eN, eN1, bind, Except.bind, Perc.runOnce, this]

/-- Draws for the examples. -/
def crossDraws : RunDraws := ⟨fun _ => 0, fun i => ⟨i * i + 1, i / 2⟩, 40⟩

/-- The sequences recorded by the three classes for `L = 2` and these draws: L0 records the order twice, L1 the order as indices and the
left-over pool as ids, L2 the left-over pool twice. -/
example :
    (singleRealization demoEnv .l0 2 (fun _ => 0) crossDraws).toOption.map (fun f => (f.siteIdSequence, f.siteIndexSequence)) =
      some ([2, 3, 0, 1], [[1, 0], [1, 1], [0, 0], [0, 1]]) ∧
    (singleRealization demoEnv .l1 2 (fun _ => 0) crossDraws).toOption.map (fun f => (f.siteIdSequence, f.siteIndexSequence)) =
      some ([0, 0, 0, 0], [[0, 1], [1, 0], [1, 1], [0, 0]]) ∧
    (singleRealization demoEnv .l2 2 (fun _ => 0) crossDraws).toOption.map (fun f => (f.siteIdSequence, f.siteIndexSequence)) =
      some ([0, 0, 0, 0], [[0, 0], [0, 0], [0, 0], [0, 0]]) := by
  decide +kernel

end SqPerc
