import Verif.Proof.Trace
import Verif.Spec.Sequence
import Verif.Props.Entropy
/-
The observables of a history with detection after every placement are functions of the placement sequence.
-/
namespace SqPerc

variable {α : Type} {L : Nat} {env : Env α} {v : Variant} {S S' : Perc α} {A : Abs α} {seq : List Nat}

theorem firstWrap_of {pre0 pre post : List Nat} {k : Nat} (h1 : ¬ Wraps L (· ∈ pre0 ++ pre)) (h2 : Wraps L (· ∈ pre0 ++ pre ++ [k])) :
    firstWrap L pre0 (pre ++ k :: post) = some (pre0 ++ pre, k) := by
  induction pre generalizing pre0 with
  | nil =>
    rw [List.append_nil] at h2
    simp only [List.nil_append, firstWrap, List.append_nil]
    rw [if_pos h2]
  | cons a pre ih =>
    simp only [List.cons_append, firstWrap]
    rw [if_neg]
    · rw [ih]
      · simp
      · simpa using h1
      · simpa using h2
    · intro h
      apply h1
      refine h.mono fun s hs => ?_
      simp only [List.mem_append, List.mem_cons, List.not_mem_nil, or_false] at hs ⊢
      tauto

theorem firstWrap_none {pre0 seq : List Nat} (h : ¬ Wraps L (· ∈ pre0 ++ seq)) : firstWrap L pre0 seq = none := by
  induction seq generalizing pre0 with
  | nil => rfl
  | cons a seq ih =>
    simp only [firstWrap]
    rw [if_neg, ih]
    · simpa using h
    · intro h'
      apply h
      refine h'.mono fun s hs => ?_
      simp only [List.mem_append, List.mem_cons, List.not_mem_nil, or_false] at hs ⊢
      tauto

/-- The largest cluster in terms of the sequence. -/
theorem SeqInv.largest (I : SeqInv L A seq) (hA : AReach env L A) : A.lsz = seqLargest L seq := by
  classical
  have hl := hA.largest
  have C := hA.inv.core
  unfold seqLargest
  split
  · next h => exact (hl.zero (by rw [I.count, h]; rfl)).1
  · next h =>
    have hc : 0 < A.count := by rw [I.count]; exact List.length_pos_iff.2 h
    obtain ⟨h1, h2, h3⟩ := hl.pos hc
    rw [← I.occ_eq, C.bondComps_eq]
    have hcard : ∀ g ∈ gids L, ((A.P.cb g).toFinset).card = A.P.len g := fun g hg =>
      List.toFinset_card_of_nodup (C.ndb g (mem_gids.1 hg).1 (mem_gids.1 hg).2)
    apply le_antisymm
    · rw [← h2, ← hcard _ h1]
      refine Finset.le_sup (f := Finset.card) (Finset.mem_image_of_mem _ ?_)
      rw [Finset.mem_filter]
      exact ⟨h1, by omega⟩
    · refine Finset.sup_le fun X hX => ?_
      rw [Finset.mem_image] at hX
      obtain ⟨g, hg, rfl⟩ := hX
      rw [Finset.mem_filter] at hg
      rw [hcard g hg.1]
      have := hl.le g hg.1
      omega

theorem SeqInv.not_wraps (I : SeqInv L A seq) (hL : 3 ≤ L) (ha : A.aw = false) : ¬ Wraps L (· ∈ seq) := by
  rw [← I.occ_eq]; exact (I.off ha hL).not_wraps

theorem SeqInv.firstWrap (I : SeqInv L A seq) (hL : 3 ≤ L) :
    (A.aw = false ∧ firstWrap L [] seq = none) ∨
    (A.aw = true ∧ ∃ pre k, firstWrap L [] seq = some (pre, k) ∧ A.pco = pre.length + 1 ∧
      A.pcs = some (siteComp L (· ∈ pre ++ [k]) k).card ∧ (∀ d, A.pcb = some (bondComp L (· ∈ pre ++ [k]) (bondAt L k d)).card) ∧
      k ∈ seq ∧ A.V.sg k = A.wid) := by
  cases ha : A.aw with
  | false => exact Or.inl ⟨rfl, firstWrap_none (by rw [List.nil_append]; exact I.not_wraps hL ha)⟩
  | true =>
    obtain ⟨pre, k, post, h1, h2, h3, h4, h5, h6, h7⟩ := I.on ha
    refine Or.inr ⟨rfl, pre, k, ?_, h4, h5, h6, by rw [h1]; simp, h7⟩
    rw [h1]
    exact firstWrap_of (pre0 := []) (by simpa using h2) (by simpa using h3.wraps)

/-- The wrapping cluster in terms of the sequence. -/
theorem SeqInv.wrapping (I : SeqInv L A seq) (hA : AReach env L A) :
    (if A.aw = true then A.P.len A.wid else 0) = seqWrapping L seq := by
  unfold seqWrapping
  by_cases hL : L < 3
  · rw [if_pos hL, (hA.wrap.flat (by omega)).2]; rfl
  · rw [if_neg hL]
    rcases I.firstWrap (by omega) with ⟨h1, h2⟩ | ⟨h1, pre, k, h2, _, _, _, hk, hw⟩
    · rw [h1, h2]; rfl
    · rw [h2, if_pos h1]
      show _ = (bondComp L (· ∈ seq) (bondAt L k .right)).card
      rw [← I.occ_eq, hA.inv.core.bondComp_card ((I.occ k).2 hk), hw]; rfl

/-- What is reported in a state reached by occupying the sites of `seq`, apart from the entropy. -/
structure Reports (env : Env α) (L : Nat) (S : Perc α) (seq : List Nat) : Prop where
  occ : ∀ s, S.Occ s ↔ s ∈ seq
  count : S.occupiedCount = seq.length
  prob : S.occupationProb env = env.ar.div (env.ar.ofNat seq.length) (env.ar.ofNat (L * L))
  largest : S.largestCluster = seqLargest L seq
  ordLargest : S.orderLargest env = env.ar.div (env.ar.ofNat (seqLargest L seq)) (env.ar.ofNat (2 * (L * L)))
  ordWrapping : S.orderWrapping env = .ok
    (if S.afterWrapping = true then env.ar.div (env.ar.ofNat (seqWrapping L seq)) (env.ar.ofNat (2 * (L * L))) else env.ar.ofNat 0)
  small : L < 3 → S.afterWrapping = false ∧ S.getPc env = env.ar.ofNat 0 ∧ S.getSiteCountPc = 0 ∧ S.getBondCountPc = 0
  before : 3 ≤ L → firstWrap L [] seq = none → S.afterWrapping = false ∧ S.getPc env = env.ar.ofNat 0 ∧ S.getSiteCountPc = 0 ∧
    S.getBondCountPc = 0
  after : 3 ≤ L → ∀ pre k, firstWrap L [] seq = some (pre, k) → S.afterWrapping = true ∧
    S.getPc env = env.ar.div (env.ar.ofNat (pre.length + 1)) (env.ar.ofNat (L * L)) ∧
    S.getSiteCountPc = (siteComp L (· ∈ pre ++ [k]) k).card ∧
    S.getBondCountPc = (bondComp L (· ∈ pre ++ [k]) (bondAt L k .right)).card

theorem SeqInv.reports (M : Sim env L S A) (hA : AReach env L A) (I : SeqInv L A seq) : Reports env L S seq := by
  have hB : S.lat.bondCount = 2 * (L * L) := by rw [M.lat, mkLat_bondCount]
  have hN : S.lat.siteCount = L * L := by rw [M.lat, mkLat_siteCount]
  have hoff : A.aw = false → S.afterWrapping = false ∧ S.getPc env = env.ar.ofNat 0 ∧ S.getSiteCountPc = 0 ∧ S.getBondCountPc = 0 := by
    intro ha
    obtain ⟨_, o1, o2, _⟩ := hA.wrap.off ha
    have hS : S.afterWrapping = false := M.aw.trans ha
    refine ⟨hS, ?_, ?_, ?_⟩
    · rw [Perc.getPc, hS]; rfl
    · rw [Perc.getSiteCountPc, M.pcs, o2]
    · rw [Perc.getBondCountPc, M.pcb, o1]
  refine ⟨?_, M.count.trans I.count, ?_, M.lsz.trans (I.largest hA), ?_, ?_, ?_, ?_, ?_⟩
  · intro s; rw [M.occ_iff, I.occ]
  · rw [Perc.occupationProb, M.count, I.count, hN]
  · rw [Perc.orderLargest, M.lsz, I.largest hA, hB]
  · rw [orderWrapping_ok M hA, ← I.wrapping hA, M.aw]
    by_cases h : A.aw = true
    · simp [h]
    · simp [h]
  · intro hL; exact hoff (hA.wrap.flat (by omega)).2
  · intro hL h
    rcases I.firstWrap hL with ⟨h1, _⟩ | ⟨_, _, _, h2, _⟩
    · exact hoff h1
    · rw [h] at h2; cases h2
  · intro hL pre k h
    rcases I.firstWrap hL with ⟨_, h1⟩ | ⟨h1, pre', k', h2, h3, h4, h5, _⟩
    · rw [h] at h1; cases h1
    · rw [h] at h2; cases h2
      have hS : S.afterWrapping = true := M.aw.trans h1
      refine ⟨hS, ?_, ?_, ?_⟩
      · rw [Perc.getPc, if_pos hS, M.pco, h3, hN]
      · rw [Perc.getSiteCountPc, M.pcs, h4]
      · rw [Perc.getBondCountPc, M.pcb, h5 .right]

theorem Trace.reports (T : Trace env v L S seq) : Reports env L S seq := by
  obtain ⟨_, A, M, hA, I⟩ := T.sim
  exact I.reports M hA

theorem Trace.entropy {so : SetOrder} {S : Perc ℝ} (T : Trace (realEnv so) v L S seq) : S.entropy = shannon L (· ∈ seq) := by
  obtain ⟨hL, A, M, hA, I⟩ := T.sim
  rw [Perc.entropy, M.ent, ← I.occ_eq, hA.inv.core.shannon]
  exact hA.ent hL

open Classical in
/-- The value of `order_param_wrapping()` for a sequence. -/
noncomputable def ordW (env : Env α) (L : Nat) (seq : List Nat) : α :=
  if HasWrapped L seq then env.ar.div (env.ar.ofNat (seqWrapping L seq)) (env.ar.ofNat (2 * (L * L))) else env.ar.ofNat 0

/-- The value of `order_param_largest_clstr()` for a sequence. -/
noncomputable def ordL (env : Env α) (L : Nat) (seq : List Nat) : α :=
  env.ar.div (env.ar.ofNat (seqLargest L seq)) (env.ar.ofNat (2 * (L * L)))

/-- The value of `occupation_prob()` for a sequence. -/
def prob (env : Env α) (L : Nat) (seq : List Nat) : α :=
  env.ar.div (env.ar.ofNat seq.length) (env.ar.ofNat (L * L))

theorem SeqInv.aw_iff (hA : AReach env L A) (I : SeqInv L A seq) : A.aw = true ↔ HasWrapped L seq := by
  constructor
  · intro ha
    refine ⟨hA.three ha, ?_⟩
    obtain ⟨s, _, _, h⟩ := hA.wrap.on ha
    rw [← I.occ_eq]; exact h.wraps
  · rintro ⟨hL, h⟩
    cases ha : A.aw with
    | true => rfl
    | false => exact absurd h (I.not_wraps hL ha)

theorem Trace.aw_iff (T : Trace env v L S seq) : S.afterWrapping = true ↔ HasWrapped L seq := by
  obtain ⟨_, A, M, hA, I⟩ := T.sim
  rw [M.aw]; exact I.aw_iff hA

theorem Trace.ordW (T : Trace env v L S seq) : S.orderWrapping env = .ok (ordW env L seq) := by
  rw [T.reports.ordWrapping]
  unfold SqPerc.ordW
  by_cases h : HasWrapped L seq
  · rw [if_pos h, if_pos (T.aw_iff.2 h)]
  · rw [if_neg h, if_neg (fun h' => h (T.aw_iff.1 h'))]

/-- What the lists of collected data contain after the sites of `seq` have been placed in addition to those of `pre`. -/
structure Collected (env : Env α) (v : Variant) (L : Nat) (S S' : Perc α) (pre seq : List Nat) : Prop where
  firstRun : S'.firstRun = S.firstRun
  occProb : S'.occProbList = if S.firstRun = true then S.occProbList ++ (stages pre seq).map (prob env L) else S.occProbList
  entropy : ∃ es, S'.entropyList = S.entropyList ++ es ∧ es.length = seq.length ∧
    ∀ f : List Nat → α, (∀ T q, Trace env v L T q → T.entropy = f q) → es = (stages pre seq).map f
  ordWrap : S'.orderWrapList = S.orderWrapList ++ (stages pre seq).map (SqPerc.ordW env L)
  ordLargest : S'.orderLargestList = S.orderLargestList ++ (stages pre seq).map (ordL env L)
  entropyRel : ∀ P : α → List Nat → Prop, (∀ T q, Trace env v L T q → P T.entropy q) →
    ∃ es, S'.entropyList = S.entropyList ++ es ∧ List.Forall₂ P es (stages pre seq)

theorem Collected.nil {S S' : Perc α} {pre : List Nat} (h1 : S'.firstRun = S.firstRun) (h2 : S'.occProbList = S.occProbList)
    (h3 : S'.entropyList = S.entropyList) (h4 : S'.orderWrapList = S.orderWrapList) (h5 : S'.orderLargestList = S.orderLargestList) :
    Collected env v L S S' pre [] :=
  ⟨h1, by rw [h2]; simp [stages], ⟨[], by simp [h3], rfl, fun _ _ => rfl⟩, by simp [h4, stages], by simp [h5, stages],
    fun _ _ => ⟨[], by simp [h3], .nil⟩⟩

theorem SameAux.collected {S S' : Perc α} {pre : List Nat} (h : SameAux S S') : Collected env v L S S' pre [] :=
  .nil h.firstRun h.occProb h.entList h.owList h.olList

theorem Collected.cons {S S1 S2 : Perc α} {pre seq : List Nat} {k : Nat} (h1 : SameAux S S1) (T : Trace env v L S1 (pre ++ [k]))
    {S3 : Perc α} (h3 : S1.record env = .ok S3) (h2 : Collected env v L S3 S2 (pre ++ [k]) seq) :
    Collected env v L S S2 pre (k :: seq) := by
  obtain ⟨p, hp, rfl⟩ := record_ok h3
  have hp' := hp.symm.trans T.ordW
  cases hp'
  have e1 := T.reports.prob
  have e2 := T.reports.ordLargest
  refine ⟨h2.firstRun.trans h1.firstRun, ?_, ?_, ?_, ?_, ?_⟩
  · rw [h2.occProb]
    simp only [h1.firstRun, h1.occProb, stages, List.map_cons, e1]
    split
    · simp [prob]
    · rfl
  · obtain ⟨es, q1, q2, q3⟩ := h2.entropy
    refine ⟨S1.entropy :: es, ?_, by simp [q2], ?_⟩
    · rw [q1]; simp [h1.entList]
    · intro f hf
      rw [q3 f hf, hf S1 _ T]; rfl
  · rw [h2.ordWrap]; simp [h1.owList, stages]
  · rw [h2.ordLargest]; simp [h1.olList, stages, e2, ordL]
  · intro P hP
    obtain ⟨es, q1, q2⟩ := h2.entropyRel P hP
    exact ⟨S1.entropy :: es, by rw [q1]; simp [h1.entList], .cons (hP S1 _ T) q2⟩

theorem SameAux.trans {S S1 S2 : Perc α} (h : SameAux S S1) (h' : SameAux S1 S2) : SameAux S S2 :=
  ⟨h'.maxIter.trans h.maxIter, h'.firstRun.trans h.firstRun, h'.occProb.trans h.occProb, h'.entList.trans h.entList,
   h'.owList.trans h.owList, h'.olList.trans h.olList, h'.custom.trans h.custom, h'.doSh.trans h.doSh, h'.rev.trans h.rev⟩

/-- Prepend a call that changes none of the lists. -/
theorem Collected.skip {S S1 S2 : Perc α} {pre seq : List Nat} (h1 : SameAux S S1) (h2 : Collected env v L S1 S2 pre seq) :
    Collected env v L S S2 pre seq := by
  obtain ⟨a, b, c, d, e, f⟩ := h2
  rw [h1.firstRun] at a b
  rw [h1.occProb] at b
  rw [h1.entList] at c f
  rw [h1.owList] at d
  rw [h1.olList] at e
  exact ⟨a, b, c, d, e, f⟩

/-- The loop of `run_once`: what it collects. -/
theorem Trace.runLoop_data (fuel : Nat) : ∀ {ds : Nat → Draw} {S S' : Perc α} {seq : List Nat}, Trace env v L S seq →
    Perc.runLoop env v fuel ds S = .ok S' → ∃ seq', Trace env v L S' (seq ++ seq') ∧ Collected env v L S S' seq seq' := by
  induction fuel with
  | zero => intro ds S S' seq _ h; cases h
  | succ fuel ih =>
    intro ds S S' seq T h
    simp only [Perc.runLoop] at h
    cases hp : S.placeOneSite env v (ds 0) with
    | error e => rw [hp] at h; cases h
    | ok res =>
      obtain ⟨S1, more⟩ := res
      rw [hp] at h
      obtain ⟨_, A, M, hA, _⟩ := T.sim
      have haux := (placeOneSite_sim M hA.inv hp).1
      obtain ⟨A1, hst, M1⟩ := placeOneSite_steps M hA.inv hp
      cases more with
      | false =>
        replace h : (Except.ok S1 : Py (Perc α)) = _ := h
        rw [← Except.ok.inj h]
        have hf : S1.selectionFlag ≠ some .success := by
          obtain ⟨_, V1, hV, h' | h' | h'⟩ := placeOneSite_sim M hA.inv hp
          · exact absurd h'.2.1 (by simp)
          · rw [h'.1]; simp
          · rw [h'.1]; simp
        exact ⟨[], by rw [List.append_nil]; exact T.skipped hp hf, haux.collected⟩
      | true =>
        replace h : (if S1.selectionFlag = some .success then _ else _) = _ := h
        split at h
        · next hf =>
          cases hd : S1.detectWrapping with
          | error e => rw [hd] at h; cases h
          | ok res =>
            obtain ⟨S2, w⟩ := res
            rw [hd] at h
            obtain ⟨k, _, _, T2⟩ := T.place hp hf hd
            obtain ⟨haux2, _⟩ := detectWrapping_steps M1 (hA.inv.steps hst) hd
            replace h : (S2.record env >>= _) = _ := h
            cases hr : S2.record env with
            | error e => rw [hr] at h; cases h
            | ok S3 =>
              rw [hr] at h
              obtain ⟨seq', T', c'⟩ := ih (T2.record hr) h
              exact ⟨k :: seq', by simpa using T', c'.cons (haux.trans haux2) T2 hr⟩
        · next hf =>
          obtain ⟨seq', T', c'⟩ := ih (T.skipped hp hf) h
          exact ⟨seq', T', c'.skip haux⟩

theorem Trace.runOnce_data {fuel : Nat} {ds : Nat → Draw} {S S' : Perc α} {seq : List Nat} (T : Trace env v L S seq)
    (h : S.runOnce env v fuel ds = .ok S') :
    ∃ S1 seq', S' = { S1 with firstRun := false } ∧ Trace env v L S' (seq ++ seq') ∧ Collected env v L S S1 seq seq' := by
  simp only [Perc.runOnce] at h
  cases hr : Perc.runLoop env v fuel ds S with
  | error e => rw [hr] at h; cases h
  | ok S1 =>
    rw [hr] at h
    obtain ⟨seq', T', c'⟩ := T.runLoop_data fuel hr
    rw [← Except.ok.inj h]
    exact ⟨S1, seq', rfl, T'.data false _ _ _ _ _, c'⟩

end SqPerc
