import Verif.Proof.RunSeq
import Verif.Proof.Custom
import Verif.Proof.Lines
import Verif.Props.Lattice
import Verif.Props.Wrapping
/-
Properties C22, C24, C25, C26, C28, C29: whole runs.
-/
namespace SqPerc

variable {α : Type} {L : Nat} {env : Env α} {v : Variant} {S S' S1 S2 : Perc α} {seq : List Nat}

/-! ### C22 -/

/-- After a placement next to at most one occupied site, `detect_wrapping()` returns False unless a wrap was reported before. -/
theorem C22_single_neighbour (hL : 3 ≤ L) (h : Reach env v L S) (haw : S.afterWrapping = false) {d : Draw} {b : Bool} {k : Nat}
    (hp : S.placeOneSite env v d = .ok (S1, b)) (hf : S1.selectionFlag = some .success) (hk : S1.selected = some k)
    (h1 : ∀ e e' : Dir, S.Occ (nbr L k e) → S.Occ (nbr L k e') → nbr L k e = nbr L k e') : S1.detectWrapping = .ok (S1, false) := by
  obtain ⟨_, A, M, hA⟩ := h.sim
  obtain ⟨_, V1, hV, hc⟩ := placeOneSite_sim M hA.inv hp
  rcases hc with ⟨_, _, k', r, V', P', hkl, hu, E, hR, hsel, M'⟩ | ⟨hf', _⟩ | ⟨hf', _⟩
  · have : k' = k := Option.some.inj (hsel.symm.trans hk)
    subst this
    have C := hA.inv.core.same hV
    have hu1 : V1.sg k' = -1 := by rw [hV.1]; exact hu
    have hvo : ∀ s, VOcc L V1 s ↔ S.Occ s := fun s => by rw [M.occ_iff, ← hV.vocc]
    have hn : ¬ Hit L V' k' := by
      rw [not_hit_iff]
      intro e he
      have hocc : VOcc L V' k' := (E.occ_iff C hkl k').2 (Or.inr rfl)
      have hoe : VOcc L V' (nbr L k' e) := ⟨nbr_lt hkl e, by rw [he]; exact hocc.2⟩
      have hoe1 := ((E.occ_iff C hkl _).1 hoe).resolve_right (nbr_ne (by omega) hkl e)
      obtain ⟨e', g1, _, g3⟩ := E.anchor_occ C hkl hu1 hoe1
      rw [h1 e e' ((hvo _).1 hoe1) ((hvo _).1 g1), g3, cdiff_nbr hL hkl]
      cases e' <;> simp [Dir.vec]
    have I1 : AInv L (({ A with V := V1 } : Abs α).placed env L k' r V' P') :=
      hA.inv.steps ((Relation.ReflTransGen.single (AStep.tick hV)).tail (AStep.place (A := { A with V := V1 }) hkl hu1 E hR))
    obtain ⟨S2, w, hd⟩ := detectWrapping_ok M' I1 (by rw [hsel]; simp)
    rcases detectWrapping_sim M' I1 hd with ⟨ha, _⟩ | ⟨_, k2, hk2, ⟨_, rfl, rfl⟩ | ⟨_, hH, _⟩⟩
    · exact absurd (ha.symm.trans (M.aw.symm.trans haw)) (by simp)
    · exact hd
    · have : k2 = k' := (Option.some.inj hk2).symm
      subst this
      exact absurd hH hn
  · rw [hf'] at hf; cases hf
  · rw [hf'] at hf; cases hf

theorem placeN_reach (n : Nat) : ∀ {S S' : Perc α} {ds : Nat → Draw} {bs : List Bool}, Reach env v L S → placeN env v n ds S = .ok (S', bs) →
    Reach env v L S' ∧ S'.afterWrapping = S.afterWrapping := by
  induction n with
  | zero =>
    intro S S' ds bs h e
    rw [← (Prod.mk.inj (Except.ok.inj e)).1]; exact ⟨h, rfl⟩
  | succ n ih =>
    intro S S' ds bs h e
    simp only [placeN] at e
    cases h1 : S.placeOneSite env v (ds 0) with
    | error e' => rw [h1] at e; cases e
    | ok r =>
      obtain ⟨S1, b⟩ := r
      rw [h1] at e
      replace e : (placeN env v n (fun i => ds (i + 1)) S1 >>= _) = _ := e
      cases h2 : placeN env v n (fun i => ds (i + 1)) S1 with
      | error e' => rw [h2] at e; cases e
      | ok r2 =>
        obtain ⟨S2, bs2⟩ := r2
        rw [h2] at e
        have e' := (Prod.mk.inj (Except.ok.inj e)).1
        subst e'
        have hR1 : Reach env v L S1 := .step (.place (ds 0)) h (by simp only [SqPerc.step]; rw [h1]; rfl)
        obtain ⟨g1, g2⟩ := ih hR1 h2
        refine ⟨g1, g2.trans ?_⟩
        obtain ⟨_, A, M, hA⟩ := h.sim
        obtain ⟨_, V1, _, ⟨_, _, k, r, V', P', _, _, _, _, _, M'⟩ | ⟨_, _, M'⟩ | ⟨_, _, M'⟩⟩ := placeOneSite_sim M hA.inv h1
        · exact M'.aw.trans M.aw.symm
        · exact M'.aw.trans M.aw.symm
        · exact M'.aw.trans M.aw.symm

theorem placeN_snoc (n : Nat) : ∀ {S S' S'' : Perc α} {ds : Nat → Draw} {bs : List Bool} {b : Bool}, placeN env v n ds S = .ok (S', bs) →
    S'.placeOneSite env v (ds n) = .ok (S'', b) → placeN env v (n + 1) ds S = .ok (S'', bs ++ [b]) := by
  induction n with
  | zero =>
    intro S S' S'' ds bs b e h
    obtain ⟨rfl, rfl⟩ := Prod.mk.inj (Except.ok.inj e)
    simp only [placeN]
    rw [h]; rfl
  | succ n ih =>
    intro S S' S'' ds bs b e h
    rw [placeN] at e
    cases h1 : S.placeOneSite env v (ds 0) with
    | error e' => rw [h1] at e; cases e
    | ok r =>
      obtain ⟨S1, b1⟩ := r
      rw [h1] at e
      replace e : (placeN env v n (fun i => ds (i + 1)) S1 >>= _) = _ := e
      cases h2 : placeN env v n (fun i => ds (i + 1)) S1 with
      | error e' => rw [h2] at e; cases e
      | ok r2 =>
        obtain ⟨S2, bs2⟩ := r2
        rw [h2] at e
        obtain ⟨rfl, rfl⟩ := Prod.mk.inj (Except.ok.inj e)
        rw [placeN, h1]
        show (placeN env v (n + 1) (fun i => ds (i + 1)) S1 >>= _) = _
        rw [ih h2 h]; rfl

/-- C22: for every `L ≥ 3` there is a history of a plain object (fill row 0 and then site `(1, 1)`, with no call of `detect_wrapping()`
in between) after which the configuration wraps but `detect_wrapping()` returns False. -/
theorem C22_missed (hL : 3 ≤ L) (hv : v.plain = true) (h : Start env v L S) (ds : Nat → Draw) : ∃ S1 S2,
    S.setCustomIds ((List.range L ++ [L + 1]).map Int.ofNat) false (fun _ => 0) = .ok S1 ∧
    placeN env v (L + 1) ds S1 = .ok (S2, List.replicate (L + 1) true) ∧ (∀ c < L, S2.Occ c) ∧ Wraps L S2.Occ ∧
    S2.detectWrapping = .ok (S2, false) := by
  have hLL : L + 1 < L * L := by
    have := Nat.mul_le_mul_right L hL; omega
  have em : ((List.range L ++ [L + 1]).map Int.ofNat).map Int.toNat = List.range L ++ [L + 1] := by
    rw [List.map_map]; exact List.map_id _
  obtain ⟨S1, e1, R, T, haw⟩ := h.setIds (ids := (List.range L ++ [L + 1]).map Int.ofNat) (by simp)
    (by
      intro i hi
      obtain ⟨j, hj, rfl⟩ := List.mem_map.1 hi
      have hj' : j < L * L := by
        rcases List.mem_append.1 hj with hj | hj
        · have := List.mem_range.1 hj; omega
        · rw [List.mem_singleton.1 hj]; exact hLL
      refine ⟨Int.natCast_nonneg j, ?_⟩
      have : ((j : Nat) : Int) < ((L * L : Nat) : Int) := Int.ofNat_lt.2 hj'
      rwa [Nat.cast_mul] at this) (fun _ => 0)
  rw [em] at R
  generalize hids : List.range L ++ [L + 1] = ids at R e1 ⊢
  have hlen : ids.length = L + 1 := by rw [← hids]; simp
  have hnd : ids.Nodup := by rw [← hids]; simp [List.nodup_range, List.nodup_append]; intros; omega
  have htk : ids.take L = List.range L := by rw [← hids]; simp
  obtain ⟨SL, p1, RL, hsim, _⟩ := R.placeN hv L ds T.reachable (by rw [Nat.zero_add, htk]; exact List.nodup_range)
  rw [Nat.zero_add, hlen, Nat.min_eq_left (by omega)] at RL
  obtain ⟨hRL, hawL⟩ := placeN_reach L (.step (.setIds _ _ _) h.reach e1) p1
  obtain ⟨A, M, hA⟩ := hsim
  have hk : ids[L]? = some (L + 1) := by rw [← hids]; simp
  obtain ⟨S2, p2, hf, hsel, R2⟩ := RL.place M hA.inv hv hk (by rw [htk]; simp) (ds L)
  have hrow : ∀ c < L, S2.Occ c := by
    intro c hc
    rw [R2.occ, List.take_of_length_le (by omega), ← hids]
    simp [hc]
  refine ⟨S1, S2, e1, ?_, hrow, ?_, ?_⟩
  · rw [placeN_snoc L p1 p2]
    congr 2
    rw [List.replicate_succ', List.append_left_inj, List.eq_replicate_iff]
    refine ⟨by simp, ?_⟩
    intro b hb
    obtain ⟨j, hj, rfl⟩ := List.mem_map.1 hb
    have := List.mem_range.1 hj
    simp; omega
  · have := row_wraps (L := L) (occ := S2.Occ) (r := 0) (by omega) (by simpa using hrow)
    exact this.wraps
  · refine C22_single_neighbour hL hRL (hawL.trans haw) p2 hf hsel ?_
    have hup : ∀ e : Dir, SL.Occ (nbr L (L + 1) e) → nbr L (L + 1) e = 1 := by
      intro e he
      rw [RL.occ, htk, List.mem_range] at he
      have e1 : L + 1 = 1 * L + 1 := by omega
      rw [e1] at he ⊢
      cases e
      · rw [nbr_right_rc (by omega)] at he; omega
      · rw [nbr_down_rc (by omega), Nat.mod_eq_of_lt (by omega)] at he; omega
      · rw [nbr_left_rc (by omega)] at he; omega
      · rw [nbr_up_rc (by omega), show 1 + (L - 1) = L by omega, Nat.mod_self]; omega
    intro e e' he he'
    rw [hup e he, hup e' he']

/-! ### C24 -/

/-- C24: on a new or just reset object of the plain classes, in the default mode, any number `n` of calls of `place_one_site` succeeds;
the `i`-th call returns True exactly for `i < L²`; the site order is a permutation of all sites, is not changed, and after `n` calls
exactly the first `n` entries are occupied, the `n`-th being the selected site. -/
theorem C24_calls (hv : v.plain = true) (h : Fresh env v L S) (n : Nat) (ds : Nat → Draw) :
    S.siteIds.Perm (List.range (L * L)) ∧
    ∃ S', placeN env v n ds S = .ok (S', (List.range n).map fun i : Nat => decide (i < L * L)) ∧ S'.siteIds = S.siteIds ∧
      (∀ s, S'.Occ s ↔ s ∈ S.siteIds.take n) ∧ (0 < n → n ≤ L * L → S'.selected = S.siteIds[n - 1]?) ∧
      S'.occupiedCount = min n (L * L) := by
  obtain ⟨hp, R⟩ := h.perm hv
  refine ⟨hp, ?_⟩
  have hl : S.siteIds.length = L * L := by rw [hp.length_eq, List.length_range]
  have hnd : S.siteIds.Nodup := hp.nodup_iff.2 List.nodup_range
  obtain ⟨S', q1, R', ⟨A', M', hA'⟩, hsel⟩ := R.placeN hv n ds h.live.1.sim (hnd.sublist (List.take_sublist _ _))
  have hocc : ∀ s, S'.Occ s ↔ s ∈ S.siteIds.take n := by
    intro s
    rw [R'.occ]
    rcases Nat.le_total (0 + n) S.siteIds.length with h | h
    · rw [Nat.min_eq_left h, Nat.zero_add]
    · rw [Nat.min_eq_right h, List.take_length, List.take_of_length_le (by omega)]
  refine ⟨S', ?_, R'.siteIds, hocc, ?_, ?_⟩
  · rw [q1]; congr 2
    apply List.map_congr_left
    intro i _
    rw [hl, Nat.zero_add]
  · intro h0 hn
    rw [hsel, if_neg (by omega), Nat.zero_add, Nat.min_eq_left (by omega)]
  · classical
    rw [M'.count, hA'.count]
    unfold occCount
    have : (Finset.range (L * L)).filter (VOcc L A'.V) = (S.siteIds.take n).toFinset := by
      ext s
      rw [Finset.mem_filter, Finset.mem_range, List.mem_toFinset, ← M'.occ_iff, hocc]
      exact ⟨fun h => h.2, fun h => ⟨List.mem_range.1 (hp.mem_iff.1 (List.mem_of_mem_take h)), h⟩⟩
    rw [this, List.toFinset_card_of_nodup (hnd.sublist (List.take_sublist _ _)), List.length_take, hl]

/-- C24: `run_once` never raises, ends after `L²` placements, and places the sites in the order of `get_site_id_sequence()`; in the end
every site is occupied. -/
theorem C24_run_once (hv : v.plain = true) (h : Fresh env v L S) {fuel : Nat} (hf : L * L < fuel) (ds : Nat → Draw) :
    ∃ S', S.runOnce env v fuel ds = .ok S' ∧ Trace env v L S' S.siteIds ∧ S'.siteIds = S.siteIds ∧ ∀ s < L * L, S'.Occ s := by
  obtain ⟨hp, R⟩ := h.perm hv
  have hl : S.siteIds.length = L * L := by rw [hp.length_eq, List.length_range]
  obtain ⟨S1, e, T, R1, _⟩ := R.runLoop hv (hp.nodup_iff.2 List.nodup_range) fuel ds h.trace (by omega)
  simp only [Perc.runOnce]
  rw [e]
  refine ⟨_, rfl, T.data false _ _ _ _ _, R1.siteIds, ?_⟩
  intro s hs
  show S1.Occ s
  rw [R1.occ, List.take_length]
  exact hp.mem_iff.2 (List.mem_range.2 hs)

/-- Fresh objects exist, for every `L ≥ 1` and every random draw. -/
theorem fresh_exists (env : Env α) (v : Variant) (hL : 0 < L) (draws : Nat → Nat) : ∃ S, Perc.new env L draws = .ok S ∧ Fresh env v L S := by
  obtain ⟨rev, e, _⟩ := new_ok env hL draws
  exact ⟨_, e, .new e⟩

/-- L = 2 with draws that give the order 1, 2, 3, 0. -/
example : ∃ S, Fresh demoEnv .l0 2 S ∧ S.siteIds = [1, 2, 3, 0] := by
  obtain ⟨S, e, h⟩ := fresh_exists demoEnv .l0 (L := 2) (by decide) (fun _ => 0)
  refine ⟨S, h, ?_⟩
  obtain ⟨_, rev, rfl, _⟩ := new_inv e
  show pyShuffle (fun _ => 0) (List.range (2 * 2)) = _
  decide

/-! ### C25 and C29 -/

/-- Histories of an object on which every `run_once` is started right after construction or after `reset` (flag `true`: nothing has been
placed since).  Between runs sites may be placed and wrapping detected by hand, as long as a `reset` follows before the next
`run_once`. -/
inductive Clean (env : Env α) (v : Variant) (L : Nat) : Bool → Perc α → Prop
  | new {draws : Nat → Nat} {S : Perc α} : Perc.new env L draws = .ok S → Clean env v L true S
  | reset {b : Bool} {draws : Nat → Nat} {S S' : Perc α} : Clean env v L b S → S.reset env v draws = .ok S' → Clean env v L true S'
  | run {fuel : Nat} {ds : Nat → Draw} {S S' : Perc α} : Clean env v L true S → S.runOnce env v fuel ds = .ok S' → Clean env v L false S'
  | place {b r : Bool} {d : Draw} {S S' : Perc α} : Clean env v L b S → S.placeOneSite env v d = .ok (S', r) → Clean env v L false S'
  | detect {b w : Bool} {S S' : Perc α} : Clean env v L b S → S.detectWrapping = .ok (S', w) → Clean env v L false S'

theorem Clean.reach (hv : v ≠ .sp) {b : Bool} (h : Clean env v L b S) : DefReach env v L S ∧ (b = true → Fresh env v L S) := by
  induction h with
  | new h => exact ⟨.new h, fun _ => .new h⟩
  | reset _ hr ih => exact ⟨.step (.reset _) rfl ih.1 hr, fun _ => .reset ih.1 hr⟩
  | @run fuel ds S S' _ hr ih =>
    refine ⟨.step (.runOnce fuel ds) rfl ih.1 ?_, fun h => by cases h⟩
    simp only [step, Perc.runOnceV]
    cases v with
    | sp => exact absurd rfl hv
    | l0 => exact hr
    | l1 => exact hr
    | l2 => exact hr
  | @place b r d S S' _ hr ih => exact ⟨.step (.place d) rfl ih.1 (by simp only [step]; rw [hr]; rfl), fun h => by cases h⟩
  | detect _ hr ih => exact ⟨.step .detect rfl ih.1 (by simp only [step]; rw [hr]; rfl), fun h => by cases h⟩

/-- The occupation probabilities of a complete run. -/
def fullProbs (env : Env α) (L : Nat) : List α := (List.range (L * L)).map fun k => env.ar.div (env.ar.ofNat (k + 1)) (env.ar.ofNat (L * L))

theorem stages_prob (seq : List Nat) : ∀ pre : List Nat, (stages pre seq).map (prob env L) =
    (List.range seq.length).map fun k => env.ar.div (env.ar.ofNat (pre.length + k + 1)) (env.ar.ofNat (L * L)) := by
  induction seq with
  | nil => intro pre; rfl
  | cons a seq ih =>
    intro pre
    rw [stages, List.map_cons, ih, List.length_cons, List.range_succ_eq_map, List.map_cons, List.map_map]
    congr 1
    · unfold prob; simp
    · apply List.map_congr_left
      intro k _
      simp only [List.length_append, List.length_singleton, Function.comp]
      congr 2; omega

/-- A run from a fresh state: what is collected. -/
theorem Fresh.run (h : Fresh env v L S) {fuel : Nat} {ds : Nat → Draw} (hf : initBudget L v < fuel) :
    ∃ S' seq, S.runOnce env v fuel ds = .ok S' ∧ Trace env v L S' seq ∧ seq.Perm (List.range (L * L)) ∧ (∀ s < L * L, S'.Occ s) ∧
      S'.firstRun = false ∧ S'.occProbList = (if S.firstRun = true then S.occProbList ++ fullProbs env L else S.occProbList) ∧
      (∃ es, S'.entropyList = S.entropyList ++ es ∧ es.length = L * L ∧
        ∀ P : α → List Nat → Prop, (∀ T q, Trace env v L T q → P T.entropy q) → List.Forall₂ P es (stages [] seq)) ∧
      S'.orderWrapList = S.orderWrapList ++ (stages [] seq).map (ordW env L) ∧
      S'.orderLargestList = S.orderLargestList ++ (stages [] seq).map (ordL env L) := by
  obtain ⟨H, hb, _⟩ := h.live
  obtain ⟨S', e, H', hocc⟩ := H.runOnce ds (by rw [hb]; exact hf)
  obtain ⟨S1, seq, rfl, T, C⟩ := h.trace.runOnce_data e
  rw [List.nil_append] at T
  obtain ⟨hl, hp⟩ := T.full_length hocc
  have hprob : (stages [] seq).map (prob env L) = fullProbs env L := by
    rw [stages_prob, hl]
    unfold fullProbs
    apply List.map_congr_left
    intro k _; simp
  refine ⟨_, seq, e, T, hp, hocc, rfl, ?_, ?_, C.ordWrap, C.ordLargest⟩
  · rw [← hprob]; exact C.occProb
  · obtain ⟨es, c1, c2, _⟩ := C.entropy
    refine ⟨es, c1, c2.trans hl, fun P hP => ?_⟩
    obtain ⟨es', c4, c5⟩ := C.entropyRel P hP
    rwa [List.append_cancel_left (c1.symm.trans c4)]

theorem forall₂_eq_map {β γ : Type} {f : β → γ} {es : List γ} {l : List β} (h : List.Forall₂ (fun x q => x = f q) es l) : es = l.map f := by
  induction h with
  | nil => rfl
  | cons h _ ih => rw [h, ih]; rfl

/-- What is known about the collected data of a clean history. -/
structure CleanData (env : Env α) (L : Nat) (b : Bool) (S : Perc α) : Prop where
  probs : (S.firstRun = true ∧ S.occProbList = []) ∨ (S.firstRun = false ∧ S.occProbList = fullProbs env L)
  lists : b = true → S.entropyList = [] ∧ S.orderWrapList = [] ∧ S.orderLargestList = []

theorem Clean.data (hv : v ≠ .sp) {b : Bool} (h : Clean env v L b S) : CleanData env L b S := by
  induction h with
  | new h =>
    obtain ⟨_, rev, rfl, _⟩ := new_inv h
    exact ⟨Or.inl ⟨rfl, rfl⟩, fun _ => ⟨rfl, rfl, rfl⟩⟩
  | @reset b draws S S' hc hr ih =>
    obtain ⟨S2, h1, _, _, hl, _⟩ := (hc.reach hv).1.live.reset draws
    rw [h1] at hr
    rw [← Except.ok.inj hr]
    refine ⟨?_, fun _ => ⟨hl.entList, hl.owList, hl.olList⟩⟩
    rw [hl.firstRun, hl.occProb]
    rcases ih.probs with ⟨h1, h2⟩ | ⟨h1, h2⟩
    · left; rw [if_pos h1]; exact ⟨h1, rfl⟩
    · right; rw [if_neg (by rw [h1]; simp)]; exact ⟨h1, h2⟩
  | @run fuel ds S S' hc hr ih =>
    refine ⟨Or.inr ?_, fun h => by cases h⟩
    have hF := (hc.reach hv).2 rfl
    -- the run has come to its end, whatever the fuel
    obtain ⟨S2, seq2, e2, _⟩ := hF.run (fuel := (initBudget L v).toNat + 1 + fuel) (ds := ds) (by omega)
    have key : S' = S2 := by
      simp only [Perc.runOnce] at hr e2
      cases h1 : Perc.runLoop env v fuel ds S with
      | error x => rw [h1] at hr; cases hr
      | ok U =>
        have h2 := runLoop_fuel (m := (initBudget L v).toNat + 1) fuel h1
        rw [Nat.add_comm] at h2
        rw [h1] at hr
        rw [h2] at e2
        exact Except.ok.inj (hr.symm.trans e2)
    obtain ⟨S3, seq, e3, _, _, _, g1, g2, _⟩ := hF.run (fuel := (initBudget L v).toNat + 1 + fuel) (ds := ds) (by omega)
    rw [e2] at e3
    rw [key, Except.ok.inj e3]
    refine ⟨g1, ?_⟩
    rw [g2]
    rcases ih.probs with ⟨h1, h2⟩ | ⟨h1, h2⟩
    · rw [if_pos h1, h2]; rfl
    · rw [if_neg (by rw [h1]; simp), h2]
  | @place b r d S S' hc hr ih =>
    refine ⟨?_, fun h => by cases h⟩
    obtain ⟨A, M, hA⟩ := (hc.reach hv).1.live.sim
    have a := (placeOneSite_sim M hA.inv hr).1
    rw [a.firstRun, a.occProb]; exact ih.probs
  | @detect b w S S' hc hr ih =>
    refine ⟨?_, fun h => by cases h⟩
    obtain ⟨A, M, hA⟩ := (hc.reach hv).1.live.sim
    have a := (detectWrapping_steps M hA.inv hr).1
    rw [a.firstRun, a.occProb]; exact ih.probs

/-- C25: a `run_once` started on a new object or right after `reset` (with all earlier runs started likewise), in the default mode of the
classes L0, L1 and L2, with any random draws: it ends, and `get_data_array()` has exactly `L²` rows of four entries; the occupation
probability in row `k` is `(k + 1) / L²`. -/
theorem C25_data_array (hv : v ≠ .sp) (h : Clean env v L true S) {fuel : Nat} (hf : 5 * (L * L) < fuel) (ds : Nat → Draw) :
    ∃ S' rows, S.runOnce env v fuel ds = .ok S' ∧ S'.getDataArray = .ok rows ∧ rows.length = L * L ∧
      ∀ k < L * L, ∃ e p1 p2, rows[k]? = some [env.ar.div (env.ar.ofNat (k + 1)) (env.ar.ofNat (L * L)), e, p1, p2] := by
  have hb : initBudget L v < fuel := by
    have hf' : (5 * (L * L) : Int) < fuel := by exact_mod_cast hf
    have h0 : (0 : Int) ≤ L * L := by exact_mod_cast Nat.zero_le _
    cases v <;> simp only [initBudget] <;> omega
  obtain ⟨S', seq, e, T, hp, _, _, e1, ⟨es, e2, e2l, _⟩, e3, e4⟩ := ((h.reach hv).2 rfl).run (ds := ds) hb
  have D := h.data hv
  obtain ⟨d1, d2, d3⟩ := D.lists rfl
  have hl : seq.length = L * L := by rw [hp.length_eq, List.length_range]
  have hs : (stages [] seq).length = L * L := by rw [stages_length, hl]
  have e1' : S'.occProbList = fullProbs env L := by
    rw [e1]
    rcases D.probs with ⟨h1, h2⟩ | ⟨h1, h2⟩
    · rw [if_pos h1, h2]; rfl
    · rw [if_neg (by rw [h1]; simp), h2]
  rw [d1, List.nil_append] at e2
  rw [d2, List.nil_append] at e3
  rw [d3, List.nil_append] at e4
  have hlp : (fullProbs env L).length = L * L := by simp [fullProbs]
  refine ⟨S', ((fullProbs env L).zip (es.zip (((stages [] seq).map (ordL env L)).zip ((stages [] seq).map (ordW env L))))).map
      (fun r => [r.1, r.2.1, r.2.2.1, r.2.2.2]), e, ?_, ?_, ?_⟩
  · simp only [Perc.getDataArray, e1', e2, e3, e4]
    rw [if_pos (by simp [e2l, hs, hlp])]
  · simp [e2l, hs, hlp]
  · intro k hk
    have a1 : (fullProbs env L)[k]? = some (env.ar.div (env.ar.ofNat (k + 1)) (env.ar.ofNat (L * L))) := by
      unfold fullProbs
      rw [List.getElem?_map, List.getElem?_range hk]; rfl
    have a2 := List.getElem?_eq_getElem (l := es) (i := k) (by omega)
    have a3 := List.getElem?_eq_getElem (l := (stages [] seq).map (ordL env L)) (i := k) (by simp [hs, hk])
    have a4 := List.getElem?_eq_getElem (l := (stages [] seq).map (ordW env L)) (i := k) (by simp [hs, hk])
    refine ⟨es[k]'(by omega), ((stages [] seq).map (ordL env L))[k]'(by simp [hs, hk]), ((stages [] seq).map (ordW env L))[k]'(by simp [hs, hk]), ?_⟩
    rw [List.getElem?_map]
    generalize ((stages [] seq).map (ordL env L))[k]'_ = p1 at a3 ⊢
    generalize ((stages [] seq).map (ordW env L))[k]'_ = p2 at a4 ⊢
    have z : ((fullProbs env L).zip (es.zip (((stages [] seq).map (ordL env L)).zip ((stages [] seq).map (ordW env L)))))[k]? =
        some (env.ar.div (env.ar.ofNat (k + 1)) (env.ar.ofNat (L * L)), es[k]'(by omega), p1, p2) := by
      simp only [List.getElem?_zip_eq_some]
      exact ⟨a1, a2, a3, a4⟩
    rw [z]
    rfl

/-- `n` repetitions of `reset(); run_once()`. -/
def cycles (env : Env α) (v : Variant) (fuel : Nat) (draws : Nat → Nat → Nat) (ds : Nat → Nat → Draw) : Nat → Perc α → Py (Perc α)
  | 0, S => .ok S
  | n + 1, S => do
    let S ← cycles env v fuel draws ds n S
    let S ← S.reset env v (draws n)
    S.runOnce env v fuel (ds n)

/-- C29: any number of repetitions of `reset(); run_once()` works, and after each one `get_data_array()` returns `L²` rows. -/
theorem C29_repetitions (hv : v ≠ .sp) {b : Bool} (h : Clean env v L b S) {fuel : Nat} (hf : 5 * (L * L) < fuel)
    (draws : Nat → Nat → Nat) (ds : Nat → Nat → Draw) (n : Nat) :
    ∃ S', cycles env v fuel draws ds n S = .ok S' ∧ (∃ b', Clean env v L b' S') ∧
      (0 < n → ∃ rows, S'.getDataArray = .ok rows ∧ rows.length = L * L) := by
  induction n with
  | zero => exact ⟨S, rfl, ⟨b, h⟩, fun h => absurd h (Nat.lt_irrefl 0)⟩
  | succ n ih =>
    obtain ⟨S1, e, ⟨b1, h1⟩, _⟩ := ih
    obtain ⟨S2, e2, _⟩ := (h1.reach hv).1.live.reset (draws n)
    have h2 := h1.reset e2
    obtain ⟨S3, rows, e3, e4, e5, _⟩ := C25_data_array hv h2 hf (ds n)
    refine ⟨S3, ?_, ⟨false, h2.run e3⟩, fun _ => ⟨rows, e4, e5⟩⟩
    simp only [cycles]
    rw [e]
    show (S1.reset env v (draws n) >>= _) = _
    rw [e2]
    exact e3

/-- C29, negative part: if the very first `run_once` is started after `m ≥ 1` calls of `place_one_site` on the new object, then every
later `reset(); run_once()` ends with an object on which `get_data_array()` raises. -/
theorem C29_late_first_run {draws draws' : Nat → Nat} {m fuel fuel' : Nat} {ds ds' ds'' : Nat → Draw} {bs : List Bool} {S0 S3 S4 : Perc α}
    (hv : v ≠ .sp) (hn : Perc.new env L draws = .ok S0) (hm : 0 < m) (hp : placeN env v m ds S0 = .ok (S1, bs))
    (hr : S1.runOnce env v fuel ds' = .ok S2) (hre : S2.reset env v draws' = .ok S3) (hr2 : S3.runOnce env v fuel' ds'' = .ok S4) :
    S4.getDataArray = .error .valueError := by
  have D0 : DefReach env v L S0 := .new hn
  have F0 : Fresh env v L S0 := .new hn
  obtain ⟨A0, M0, hA0⟩ := D0.live.sim
  have hS0 : S0.firstRun = true ∧ S0.occProbList = [] ∧ S0.entropyList = [] ∧ S0.occupiedCount = 0 := by
    obtain ⟨_, rev, rfl, _⟩ := new_inv hn; exact ⟨rfl, rfl, rfl, rfl⟩
  obtain ⟨hL, _⟩ := D0.reach.sim
  -- after the calls at least one site is occupied, and the lists are empty
  have h1 : SameAux S0 S1 ∧ 1 ≤ S1.occupiedCount ∧ Live env v L S1 := by
    obtain ⟨S1', g1, g2, _⟩ := D0.live.placeN m ds
    rw [g1] at hp
    obtain ⟨rfl, _⟩ := Prod.mk.inj (Except.ok.inj hp)
    refine ⟨(placeN_aux m M0 hA0 g1).1, ?_, g2⟩
    obtain ⟨m, rfl⟩ : ∃ k, m = k + 1 := ⟨m - 1, by omega⟩
    simp only [placeN] at g1
    obtain ⟨T, b, p1, HT, _, hf⟩ := D0.live.place (ds 0)
    have hb : b = true := by
      cases b with
      | true => rfl
      | false =>
        have := (hf rfl).1
        rw [F0.live.2.1] at this
        have h0 : (0 : Int) < L * L := by exact_mod_cast Nat.mul_pos hL hL
        exact absurd this (by cases v <;> simp only [initBudget] <;> omega)
    subst hb
    have hfl := place_on_empty M0 hA0.inv F0.live.2.2.2 p1
    obtain ⟨_, _, _, _, _, _, _, hc⟩ := (placeOneSite_occ M0 hA0.inv p1).resolve_right (fun h => h.1 hfl)
    rw [p1] at g1
    replace g1 : (placeN env v m (fun i => ds (i + 1)) T >>= _) = _ := g1
    cases h2 : placeN env v m (fun i => ds (i + 1)) T with
    | error e => rw [h2] at g1; cases g1
    | ok r2 =>
      rw [h2] at g1
      obtain ⟨h3, _⟩ := Prod.mk.inj (Except.ok.inj g1)
      obtain ⟨AT, MT, hAT⟩ := HT.sim
      have := (placeN_aux m (bs := r2.2) MT hAT h2).2.1
      rw [← h3]; omega
  obtain ⟨a1, hc1, H1⟩ := h1
  -- a run from a live state: lengths
  have run : ∀ {T T' : Perc α} {fuel : Nat} {ds : Nat → Draw}, Live env v L T → T.runOnce env v fuel ds = .ok T' →
      Live env v L T' ∧ T'.firstRun = false ∧ T'.entropyList.length + T.occupiedCount = T.entropyList.length + L * L ∧
      (T.firstRun = true → T'.occProbList.length + T.occupiedCount = T.occProbList.length + L * L) ∧
      (T.firstRun = false → T'.occProbList = T.occProbList) := by
    intro T T' fuel ds HT h
    obtain ⟨A, M, hA⟩ := HT.sim
    simp only [Perc.runOnce] at h
    cases hr : Perc.runLoop env v fuel ds T with
    | error e => rw [hr] at h; cases h
    | ok U =>
      rw [hr] at h
      rw [← Except.ok.inj h]
      obtain ⟨b1, b2, b3, b4⟩ := runLoop_len fuel M hA hr
      have e := runLoop_fuel (m := (T.budget L v).toNat + 1) fuel hr
      obtain ⟨U', e', HU, hocc⟩ := HT.runLoop (fuel + ((T.budget L v).toNat + 1)) ds (by have := HT.nonneg; omega)
      rw [e] at e'
      have hU : U = U' := Except.ok.inj e'
      subst hU
      obtain ⟨AU, MU, hAU⟩ := HU.sim
      have hcU : U.occupiedCount = L * L := by
        rw [MU.count, hAU.count, occCount_full]
        intro s hs; exact (MU.occ_iff s).1 (hocc s hs)
      rw [hcU] at b2 b3
      exact ⟨(HU.data false _ _ _ _ _).1, rfl, b2, b3, b4⟩
  obtain ⟨H2, f2, _, p2, _⟩ := run H1 hr
  have p2' := p2 (a1.firstRun.trans hS0.1)
  rw [a1.occProb, hS0.2.1] at p2'
  obtain ⟨S3', e3, H3, _, R3, _, hc3, _⟩ := H2.reset draws'
  rw [e3] at hre
  have : S3' = S3 := Except.ok.inj hre
  subst this
  obtain ⟨_, _, l4, _, p4⟩ := run H3 hr2
  have hfr3 : S3'.firstRun = false := R3.firstRun.trans f2
  have q4 := p4 hfr3
  rw [R3.entList, hc3] at l4
  rw [R3.occProb, if_neg (by rw [f2]; simp)] at q4
  simp only [Perc.getDataArray]
  rw [if_neg]
  rintro ⟨h, _⟩
  rw [q4] at h
  simp only [List.length_nil] at l4 p2'
  omega

/-- The hypotheses of the negative part are met, whatever the length, the class and the random numbers. -/
example (hL : 0 < L) (v : Variant) (draws draws' : Nat → Nat) (ds ds' ds'' : Nat → Draw) (m : Nat) :
    ∃ S0 S1 S2 S3 S4 bs fuel, Perc.new env L draws = .ok S0 ∧ placeN env v m ds S0 = .ok (S1, bs) ∧
      S1.runOnce env v fuel ds' = .ok S2 ∧ S2.reset env v draws' = .ok S3 ∧ S3.runOnce env v fuel ds'' = .ok S4 := by
  obtain ⟨S0, e0, F0⟩ := fresh_exists env v hL draws
  obtain ⟨S1, e1, H1, b1, _⟩ := F0.live.1.placeN m ds
  have hb : 0 ≤ initBudget L v := by rw [← F0.live.2.1]; exact F0.live.1.nonneg
  obtain ⟨S2, e2, H2, _⟩ := H1.runOnce (fuel := (initBudget L v).toNat + 1) ds' (by rw [b1, F0.live.2.1]; push_cast; omega)
  obtain ⟨S3, e3, H3, b3, _⟩ := H2.reset draws'
  obtain ⟨S4, e4, _⟩ := H3.runOnce (fuel := (initBudget L v).toNat + 1) ds'' (by rw [b3]; push_cast; omega)
  exact ⟨S0, S1, S2, S3, S4, _, _, e0, e1, e2, e3, e4⟩

/-! ### C26 -/

/-- Every site occupied: one cluster. -/
theorem full_views {A : Abs α} (hA : AReach env L A) (h : ∀ s < L * L, VOcc L A.V s) (ha : A.aw = true) :
    (∀ s < L * L, A.V.sg s = A.wid) ∧ (∀ b < 2 * (L * L), A.V.bg b = A.wid) ∧ A.P.len A.wid = 2 * (L * L) ∧
    (A.P.cs A.wid).length = L * L ∧ (∀ g ∈ gids L, g ≠ A.wid → A.P.len g = 0 ∧ A.P.cs g = []) := by
  have C := hA.inv.core
  obtain ⟨s0, h1, h2, _⟩ := hA.wrap.on ha
  have hb0 : bondAt L s0 .right < 2 * (L * L) := bondAt_lt h1.1 _
  have e0 : A.V.bg (bondAt L s0 .right) = A.wid := by rw [C.inc s0 _ h1, h2]
  have hb : ∀ b < 2 * (L * L), A.V.bg b = A.wid := fun b hb => by rw [← e0]; exact C.full h hb hb0
  have hs : ∀ s < L * L, A.V.sg s = A.wid := fun s hs => by rw [← C.inc s .right (h s hs)]; exact hb _ (bondAt_lt hs _)
  obtain ⟨hg, _⟩ := hA.wid_gids ha
  obtain ⟨g0, g1⟩ := mem_gids.1 hg
  have hlen : A.P.len A.wid = 2 * (L * L) := by rw [← e0]; exact C.full_len h hb0
  refine ⟨hs, hb, hlen, ?_, ?_⟩
  · have : (A.P.cs A.wid).Perm (List.range (L * L)) := by
      rw [List.perm_ext_iff_of_nodup (C.nds _ g0 g1) List.nodup_range]
      intro s
      rw [C.mems _ g0 g1, List.mem_range]
      exact ⟨fun h => h.1, fun h => ⟨h, hs s h⟩⟩
    rw [this.length_eq, List.length_range]
  · intro g hg' hne
    have : A.P.len g = 0 := by
      rw [C.len_eq_card hg', Finset.card_eq_zero, Finset.filter_eq_empty_iff]
      intro b hb' he
      exact hne (by rw [← he]; exact hb b (Finset.mem_range.1 hb'))
    exact ⟨this, C.cs_nil hg' this⟩

/-- The loop of `test_clusters`. -/
theorem testClustersLoop_eq {A : Abs α} (M : Sim env L S A) (gs : List Nat) (h : ∀ g ∈ gs, g < 2 * (L * L))
    (hw : ∀ g ∈ gs, (g : Int) = A.wid → A.P.len A.wid = 2 * (L * L) ∧ (A.P.cs A.wid).length = L * L) (b s : Nat) :
    Perc.testClustersLoop S gs b s = .ok
      (b + (gs.map fun g : Nat => if (g : Int) = A.wid then 0 else A.P.len g).sum, s + (gs.map fun g : Nat => if (g : Int) = A.wid then 0 else (A.P.cs g).length).sum) := by
  induction gs generalizing b s with
  | nil => simp [Perc.testClustersLoop]
  | cons g gs ih =>
    have hg := h g (by simp)
    have g0 : (0 : Int) ≤ g := Int.natCast_nonneg _
    have g1 : (g : Int) < (2 * (L * L) : Nat) := by exact_mod_cast hg
    simp only [Perc.testClustersLoop, M.pool, bondCount_mk g0 g1]
    show (ClusterPool.siteCount _ _ >>= _) = _
    rw [siteCount_mk g0 g1]
    show (if (g : Int) = S.wrappingId then _ else _) = _
    rw [M.wid]
    by_cases hgw : (g : Int) = A.wid
    · obtain ⟨w1, w2⟩ := hw g (by simp) hgw
      rw [if_pos hgw]
      unfold PV.len at w1
      rw [hgw, w1, w2, M.lat, mkLat_bondCount, mkLat_siteCount]
      simp only [decide_true]
      show Perc.testClustersLoop S gs b s = _
      rw [ih (fun x hx => h x (by simp [hx])) (fun x hx => hw x (by simp [hx]))]
      simp [hgw]
    · rw [if_neg hgw]
      show Perc.testClustersLoop S gs (b + A.P.len g) (s + (A.P.cs g).length) = _
      rw [ih (fun x hx => h x (by simp [hx])) (fun x hx => hw x (by simp [hx]))]
      simp [hgw, Nat.add_assoc]

/-- C26: for `L ≥ 3`, when every site is occupied in a history with detection after every placement: all sites and all bonds carry the gid
`wrapping_cluster_id`, that cluster has `2 L²` bonds, both order parameters are `2 L² / 2 L²`, and `test_clusters()` and
`test_lattice()` pass. -/
theorem C26_full_lattice (hL : 3 ≤ L) (T : Trace env v L S seq) (hfull : ∀ s < L * L, S.Occ s) :
    S.afterWrapping = true ∧ (∀ s < L * L, S.lat.getSiteGid s = .ok S.wrappingId) ∧ (∀ b < 2 * (L * L), S.lat.getBondGid b = .ok S.wrappingId) ∧
    S.pool.bondCount S.wrappingId = .ok (2 * (L * L)) ∧ S.pool.siteCount S.wrappingId = .ok (L * L) ∧
    S.orderWrapping env = .ok (env.ar.div (env.ar.ofNat (2 * (L * L))) (env.ar.ofNat (2 * (L * L)))) ∧
    S.orderLargest env = env.ar.div (env.ar.ofNat (2 * (L * L))) (env.ar.ofNat (2 * (L * L))) ∧
    S.testClusters = .ok () ∧ S.testLattice = .ok () := by
  have hw : Wraps L (· ∈ seq) := by
    refine full_wraps (by omega) fun s hs => ?_
    exact (T.reports.occ s).1 (hfull s hs)
  have haw := T.aw_iff.2 ⟨hL, hw⟩
  obtain ⟨_, A, M, hA, I⟩ := T.sim
  have C := hA.inv.core
  have ha : A.aw = true := by rw [← M.aw]; exact haw
  have hocc : ∀ s < L * L, VOcc L A.V s := fun s hs => (M.occ_iff s).1 (hfull s hs)
  obtain ⟨hs, hb, hlen, hcs, hother⟩ := full_views hA hocc ha
  obtain ⟨hg, _⟩ := hA.wid_gids ha
  obtain ⟨g0, g1⟩ := mem_gids.1 hg
  have hcount : A.count = L * L := by rw [hA.count, occCount_full]; exact hocc
  have hlsz : A.lsz = 2 * (L * L) := by
    obtain ⟨l1, l2, l3⟩ := hA.largest.pos (by rw [hcount]; exact Nat.mul_pos (by omega) (by omega))
    by_cases hid : A.lid = A.wid
    · rw [← l2, hid, hlen]
    · have := (hother A.lid l1 hid).1
      omega
  refine ⟨haw, fun s h => by rw [M.siteGid h, hs s h, M.wid], fun b h => by rw [M.bondGid h, hb b h, M.wid], ?_, ?_, ?_, ?_, ?_, ?_⟩
  · rw [M.pool, M.wid, bondCount_mk g0 g1]; exact congrArg _ hlen
  · rw [M.pool, M.wid, siteCount_mk g0 g1, hcs]
  · rw [orderWrapping_ok M hA, if_pos ha, hlen]
  · rw [Perc.orderLargest, M.lsz, hlsz, M.lat, mkLat_bondCount]
  · have hp2 : L ^ 2 = L * L := Nat.pow_two L
    simp only [Perc.testClusters, M.count, hcount, M.lat, mkLat_siteCount, mkLat_length, hp2]
    rw [if_neg (Nat.lt_irrefl _)]
    rw [testClustersLoop_eq M _ (fun g hg => List.mem_range.1 hg) (fun _ _ _ => ⟨hlen, hcs⟩)]
    have z : ∀ f : Nat → Nat, (∀ g < 2 * (L * L), f g = 0) → ((List.range (2 * (L * L))).map f).sum = 0 := by
      intro f hf
      apply List.sum_eq_zero
      intro x hx
      obtain ⟨g, hg, rfl⟩ := List.mem_map.1 hx
      exact hf g (List.mem_range.1 hg)
    have z1 := z (fun g : Nat => if (g : Int) = A.wid then 0 else A.P.len g) (fun g hg => by
      by_cases e : (g : Int) = A.wid
      · simp [e]
      · simp only [if_neg e]; exact (hother g (natCast_mem_gids hg) e).1)
    have z2 := z (fun g : Nat => if (g : Int) = A.wid then 0 else (A.P.cs g).length) (fun g hg => by
      by_cases e : (g : Int) = A.wid
      · simp [e]
      · simp only [if_neg e]; rw [(hother g (natCast_mem_gids hg) e).2]; rfl)
    rw [z1, z2]
    show pyAssert (decide (S.largestSz = (List.range (2 * (L * L))).length)) = _
    rw [M.lsz, hlsz, List.length_range]
    simp [pyAssert]
  · have hof : LatticeOf L S.lat := .traced T
    have hcnt : S.occupiedCount = S.lat.siteCount := by rw [M.count, hcount, M.lat, mkLat_siteCount]
    simp only [Perc.testLattice, bind_unit_ok_iff]
    refine ⟨(C01_distinct hof (by omega)).2.2, testRelativeIndex_sim M hA, (C01_scans_pass hof).2, (C01_scans_pass hof).1, ?_⟩
    rw [if_pos hcnt]
    simp only [Lattice.testLattice, bind_unit_ok_iff, forM_ok_iff]
    constructor
    · intro ss hss
      rw [M.lat] at hss
      simp only [mkLat, List.mem_map, List.mem_range] at hss
      obtain ⟨s, h, rfl⟩ := hss
      have hnd := (C01_distinct hof (by omega)).1 s _ (by rw [M.lat]; exact getNeighborBonds_mk h)
      simp only [Lattice.testLatticeSite, bind_unit_ok_iff, pyAssert_ok_iff, decide_eq_true_iff]
      refine ⟨rfl, ?_, ?_⟩
      · show (siteBonds L s).eraseDups.length = 4
        rw [eraseDups_of_nodup hnd]; rfl
      · show A.V.sg s = S.wrappingId
        rw [hs s h, M.wid]
    · intro bb hbb
      rw [M.lat] at hbb
      simp only [mkLat, List.mem_map, List.mem_range] at hbb
      obtain ⟨b, h, rfl⟩ := hbb
      have hnd := (C01_distinct hof (by omega)).2.1 b _ (by rw [M.lat]; exact getNeighborSites_mk h)
      simp only [Lattice.testLatticeBond, bind_unit_ok_iff, pyAssert_ok_iff, decide_eq_true_iff]
      refine ⟨rfl, ?_, ?_⟩
      · show (bondSites L b).eraseDups.length = 2
        rw [eraseDups_of_nodup hnd]; rfl
      · show A.V.bg b = S.wrappingId
        rw [hb b h, M.wid]

/-- C26, the exception: for `L ≤ 2`, when every site is occupied, `test_lattice()` raises an AssertionError (and so does
`test_clusters()`): the code never detects a wrap there. -/
theorem C26_small_lattice_fails (hL : L ≤ 2) (h : Reach env v L S) (hfull : ∀ s < L * L, S.Occ s) :
    S.testLattice = .error .assertionError ∧ S.testClusters = .error .assertionError := by
  obtain ⟨hL0, A, M, hA⟩ := h.sim
  have C := hA.inv.core
  have hocc : ∀ s < L * L, VOcc L A.V s := fun s hs => (M.occ_iff s).1 (hfull s hs)
  have haw : A.aw = false := (hA.wrap.flat hL).2
  have hwid : A.wid = -1 := (hA.wrap.off haw).1
  have hcount : A.count = L * L := by rw [hA.count, occCount_full]; exact hocc
  have hcnt : S.occupiedCount = S.lat.siteCount := by rw [M.count, hcount, M.lat, mkLat_siteCount]
  constructor
  · obtain rfl | rfl : L = 1 ∨ L = 2 := by omega
    · simp only [Perc.testLattice]
      rw [(C01_length_one (.used h)).2.2]; rfl
    · have hof : LatticeOf 2 S.lat := .used h
      simp only [Perc.testLattice]
      rw [(C01_distinct hof (by omega)).2.2]
      show (S.lat.testRelativeIndex >>= _) = _
      rw [testRelativeIndex_sim M hA]
      show (S.lat.scanBonds >>= _) = _
      rw [(C01_scans_pass hof).2]
      show (S.lat.scanSites >>= _) = _
      rw [(C01_scans_pass hof).1]
      show (if _ then _ else _) = _
      rw [if_pos hcnt, M.wid, hwid, M.lat]
      have h0 : A.V.sg 0 ≠ -1 := by have := (hocc 0 (by omega)).2; omega
      have e0 : pyAssert (decide (A.V.sg 0 = -1)) = .error .assertionError := by
        rw [decide_eq_false h0]; rfl
      show ((Lattice.testLatticeSite (-1) (mkSite 2 A.V 0) >>= _) >>= _) = _
      have e1 : Lattice.testLatticeSite (-1) (mkSite 2 A.V 0) = pyAssert (decide (A.V.sg 0 = -1)) := rfl
      rw [e1, e0]; rfl
  · have hp2 : L ^ 2 = L * L := Nat.pow_two L
    simp only [Perc.testClusters, M.count, hcount, M.lat, mkLat_siteCount, mkLat_length, hp2]
    rw [if_neg (Nat.lt_irrefl _)]
    rw [testClustersLoop_eq M _ (fun g hg => List.mem_range.1 hg) (fun g _ hg => by rw [hwid] at hg; omega)]
    have hpos : 0 < L * L := Nat.mul_pos hL0 hL0
    have e : ((List.range (2 * (L * L))).map fun g : Nat => if (g : Int) = A.wid then 0 else A.P.len g).sum ≠ 0 := by
      intro h0
      obtain ⟨l1, l2, l3⟩ := hA.largest.pos (by rw [hcount]; exact hpos)
      obtain ⟨g0, g1⟩ := mem_gids.1 l1
      obtain ⟨g, hg⟩ := Int.eq_ofNat_of_zero_le g0
      have hgl : g < 2 * (L * L) := by omega
      have := List.sum_eq_zero_iff.1 h0 _ (List.mem_map_of_mem (List.mem_range.2 hgl))
      rw [if_neg (by rw [hwid]; omega)] at this
      rw [hg] at l2
      have l2' : A.P.len (g : Int) = A.lsz := l2
      omega
    show (pyAssert (decide (0 + _ = 0)) >>= _) = _
    rw [Nat.zero_add, decide_eq_false e]
    rfl

/-- Full lattices at the end of a run exist, for every length, class and random numbers; so the theorems above speak about every completed
run. -/
example (hL : 0 < L) (v : Variant) (draws : Nat → Nat) (ds : Nat → Draw) : ∃ S S' seq fuel, Perc.new env L draws = .ok S ∧
    S.runOnce env v fuel ds = .ok S' ∧ Trace env v L S' seq ∧ ∀ s < L * L, S'.Occ s := by
  obtain ⟨S, e, F⟩ := fresh_exists env v hL draws
  obtain ⟨S', seq, e', T, _, h, _⟩ := F.run (fuel := (initBudget L v).toNat + 1) (ds := ds) (by omega)
  exact ⟨S, S', seq, _, e, e', T, h⟩

/-! ### C28 -/

/-- C28: after `reset()`, in any history, the object has the lattice, the clusters, the counters, the entropy, and the wrapping and
critical data of a newly constructed object, and empty lists of entropies and order parameters. -/
theorem C28_reset_state {S S' N : Perc α} {draws draws' : Nat → Nat} (h : Reach env v L S) (hr : S.reset env v draws = .ok S')
    (hn : Perc.new env L draws' = .ok N) :
    S'.lat = N.lat ∧ S'.pool = N.pool ∧ S'.occupiedCount = N.occupiedCount ∧ S'.currentIdx = N.currentIdx ∧ S'.largestSz = N.largestSz ∧
    S'.largestId = N.largestId ∧ S'.clusterCount = N.clusterCount ∧ S'.maxEntropy = N.maxEntropy ∧ S'.entropy = N.entropy ∧
    S'.afterWrapping = N.afterWrapping ∧ S'.wrappingId = N.wrappingId ∧ S'.pcOccupied = N.pcOccupied ∧ S'.pcBonds = N.pcBonds ∧
    S'.pcSites = N.pcSites ∧ S'.selectionFlag = N.selectionFlag ∧ S'.entropyList = N.entropyList ∧ S'.orderWrapList = N.orderWrapList ∧
    S'.orderLargestList = N.orderLargestList ∧ S'.xOccupied = N.xOccupied ∧ S'.yOccupied = N.yOccupied ∧ S'.seqRecord = N.seqRecord ∧
    S'.shortestP = N.shortestP := by
  obtain ⟨e, f1, f2, _⟩ := reset_new h hr hn
  have f3 : S'.selectionFlag = N.selectionFlag := f1.trans f2.symm
  refine ⟨?_, ?_, ?_, ?_, ?_, ?_, ?_, ?_, ?_, ?_, ?_, ?_, ?_, ?_, f3, ?_, ?_, ?_, ?_, ?_, ?_, ?_⟩ <;> (rw [e]; rfl)

/-- C28: what that initial state is: every site is unoccupied with relative index `(0, 0)`, neighbour counters 4 and its original bonds;
every bond has its original sites and is a cluster of its own; nothing is occupied, nothing has wrapped. -/
theorem C28_initial_state {N : Perc α} {draws : Nat → Nat} (hn : Perc.new env L draws = .ok N) :
    (∀ s < L * L, ∃ st, N.lat.getSite s = .ok st ∧ st.gid = -1 ∧ st.rel = ⟨0, 0⟩ ∧ st.nn1 = 4 ∧ st.nn2 = 4 ∧ st.bonds = Dir.all.map (bondAt L s)) ∧
    (∀ b < 2 * (L * L), N.lat.getBondGid b = .ok b ∧ N.pool.getBonds b = .ok [b] ∧ N.pool.getSites b = .ok []) ∧
    N.occupiedCount = 0 ∧ N.largestCluster = 0 ∧ N.afterWrapping = false ∧ N.wrappingId = -1 ∧ N.pcOccupied = 0 ∧ N.pcBonds = none ∧
    N.pcSites = none ∧ N.entropy = env.ar.log (env.ar.ofNat (2 * (L * L))) := by
  obtain ⟨hL, _, M⟩ := new_sim hn
  refine ⟨fun s hs => ?_, fun b hb => ⟨?_, ?_, ?_⟩, M.count, M.lsz, M.aw, M.wid, M.pco, M.pcb, M.pcs, M.ent⟩
  · exact ⟨mkSite L LV.init s, by rw [M.lat]; exact getSite_mk hs, rfl, rfl, rfl, rfl, rfl⟩
  · exact M.bondGid hb
  · rw [M.pool, getBonds_mk (Int.natCast_nonneg _) (by exact_mod_cast hb)]
    simp [Abs.init, PV.init]
  · rw [M.pool, getSites_mk (Int.natCast_nonneg _) (by exact_mod_cast hb)]; rfl

/-- The calls that let a configuration grow. -/
def Op.isGrowth : Op → Bool
  | .place _ | .detect | .runOnce _ _ | .testRunOnce _ _ => true
  | _ => false

/-- A call together with the value it returns (`place_one_site` and `detect_wrapping` return a bool). -/
def answer (env : Env α) (v : Variant) (S : Perc α) : Op → Py (Perc α × Option Bool)
  | .place d => do
    let r ← S.placeOneSite env v d
    return (r.1, some r.2)
  | .detect => do
    let r ← S.detectWrapping
    return (r.1, some r.2)
  | op => do
    let S ← SqPerc.step env v S op
    return (S, none)

/-- A sequence of calls and the values they return. -/
def answers (env : Env α) (v : Variant) : List Op → Perc α → Py (Perc α × List (Option Bool))
  | [], S => .ok (S, [])
  | op :: ops, S => do
    let (S, b) ← answer env v S op
    let (S, bs) ← answers env v ops S
    return (S, b :: bs)

theorem answer_step (S : Perc α) (op : Op) : (answer env v S op).map Prod.fst = SqPerc.step env v S op := by
  cases op with
  | place d => simp only [answer, SqPerc.step]; cases S.placeOneSite env v d <;> rfl
  | detect => simp only [answer, SqPerc.step]; cases S.detectWrapping <;> rfl
  | _ => simp only [answer]; generalize SqPerc.step env v S _ = x; cases x <;> rfl

theorem runOnceV_agree {S S' : Perc α} (h : S' = S.put S') (fuel : Nat) (ds : Nat → Draw) :
    PyRel (fun R R' => R' = R.put R' ∧ R'.selectionFlag = R.selectionFlag ∧ (S'.selected = S.selected → R'.selected = R.selected))
      (S.runOnceV env v fuel ds) (S'.runOnceV env v fuel ds) := by
  have gen : PyRel (fun R R' => R' = R.put R' ∧ R'.selectionFlag = R.selectionFlag ∧ (S'.selected = S.selected → R'.selected = R.selected))
      (S.runOnce env v fuel ds) (S'.runOnce env v fuel ds) := by
    refine (runLoop_agree fuel h).bind ?_
    rintro R R' ⟨h1, h2, h3⟩
    obtain ⟨T, rfl⟩ : ∃ T, R' = R.put T := ⟨R', h1⟩
    exact ⟨rfl, h2, h3⟩
  cases v with
  | sp =>
    refine (spLoop_agree fuel h).bind ?_
    rintro ⟨R, b⟩ ⟨R', b'⟩ ⟨_, h1, h2, h3⟩
    simp only at h1 h2 h3 ⊢
    obtain ⟨T, rfl⟩ : ∃ T, R' = R.put T := ⟨R', h1⟩
    exact ⟨rfl, h2, h3⟩
  | l0 => exact gen
  | l1 => exact gen
  | l2 => exact gen

/-- The answers of agreeing objects. -/
theorem answer_agree {S S' : Perc α} (h : Agree S S') {op : Op} (ho : op.isGrowth = true) :
    PyRel (fun r r' : Perc α × Option Bool => Agree r.1 r'.1 ∧ r'.2 = r.2) (answer env v S op) (answer env v S' op) := by
  cases op with
  | place d => exact (place_agree h d).bind fun a b hab => ⟨hab.2, congrArg some hab.1⟩
  | detect => exact (detect_agree h).bind fun a b hab => ⟨hab.2, congrArg some hab.1⟩
  | runOnce fuel ds => exact (runOnceV_agree h.put fuel ds).bind fun a b hab => ⟨⟨hab.1, hab.2.2 h.selected, hab.2.1⟩, rfl⟩
  | testRunOnce fuel ds =>
    refine PyRel.bind (R := fun R R' => Agree R R') ?_ (fun a b hab => ⟨hab, rfl⟩)
    refine (testRunLoop_agree fuel h.put).bind ?_
    rintro R R' ⟨h1, h2, h3⟩
    have h3 := h3 h.selected
    obtain ⟨T, rfl⟩ : ∃ T, R' = R.put T := ⟨R', h1⟩
    exact ⟨rfl, h3, h2⟩
  | _ => cases ho

theorem answers_agree (ops : List Op) : ∀ {S S' : Perc α}, Agree S S' → (∀ op ∈ ops, op.isGrowth = true) →
    PyRel (fun r r' : Perc α × List (Option Bool) => Agree r.1 r'.1 ∧ r'.2 = r.2) (answers env v ops S) (answers env v ops S') := by
  induction ops with
  | nil => intro S S' h _; exact ⟨h, rfl⟩
  | cons op ops ih =>
    intro S S' h ho
    refine (answer_agree h (ho op (by simp))).bind ?_
    rintro ⟨R, b⟩ ⟨R', b'⟩ ⟨h1, h2⟩
    simp only at h1 h2
    subst h2
    refine (ih h1 fun op h => ho op (by simp [h])).bind ?_
    rintro ⟨R, bs⟩ ⟨R', bs'⟩ ⟨h3, h4⟩
    simp only at h3 h4
    subst h4
    exact ⟨h3, rfl⟩

/-- What a user can see of an object, apart from the list of occupation probabilities (which `run_once` fills only once). -/
structure Looks (N S : Perc α) : Prop where
  lat : S.lat = N.lat
  pool : S.pool = N.pool
  count : S.occupiedCount = N.occupiedCount
  idx : S.currentIdx = N.currentIdx
  ids : S.siteIds = N.siteIds
  largest : S.largestSz = N.largestSz ∧ S.largestId = N.largestId
  entropy : S.entropyValue = N.entropyValue
  wrap : S.afterWrapping = N.afterWrapping ∧ S.wrappingId = N.wrappingId
  pc : S.pcOccupied = N.pcOccupied ∧ S.pcBonds = N.pcBonds ∧ S.pcSites = N.pcSites
  lists : S.entropyList = N.entropyList ∧ S.orderWrapList = N.orderWrapList ∧ S.orderLargestList = N.orderLargestList
  own : S.xOccupied = N.xOccupied ∧ S.yOccupied = N.yOccupied ∧ S.seqRecord = N.seqRecord ∧ S.shortestP = N.shortestP
  sel : S.selected = N.selected ∧ S.selectionFlag = N.selectionFlag

theorem Agree.looks {N S : Perc α} (h : Agree N S) : Looks N S := by
  obtain ⟨T, rfl⟩ : ∃ T, S = N.put T := ⟨S, h.put⟩
  exact ⟨rfl, rfl, rfl, rfl, rfl, ⟨rfl, rfl⟩, rfl, ⟨rfl, rfl⟩, ⟨rfl, rfl, rfl⟩, ⟨rfl, rfl, rfl⟩, ⟨rfl, rfl, rfl, rfl⟩, ⟨h.selected, h.flag⟩⟩

/-- C28: after `reset()` the object behaves as a new object with the same site order: any sequence of placements, detections and runs
that starts with a placement gives the same returned values, the same exceptions and the same visible state. -/
theorem C28_behaves_as_new {S S' N : Perc α} {draws draws' : Nat → Nat} (h : DefReach env v L S) (hr : S.reset env v draws = .ok S')
    (hn : Perc.new env L draws' = .ok N) (hids : N.siteIds = S'.siteIds) {d : Draw} {ops : List Op} (ho : ∀ op ∈ ops, op.isGrowth = true) :
    PyRel (fun r r' : Perc α × List (Option Bool) => Looks r.1 r'.1 ∧ r'.2 = r.2)
      (answers env v (.place d :: ops) N) (answers env v (.place d :: ops) S') := by
  obtain ⟨e, f1, f2, _⟩ := reset_new h.reach hr hn
  have hS' : Live env v L S' := h.live.reset_ok hr
  have hN : DefReach env v L N := .new hn
  have e1 : S' = N.put S' := by
    have hm : S'.maxIter = N.maxIter := hS'.maxIter.trans hN.live.maxIter.symm
    rw [e]
    simp only [← hids, hm]
    rfl
  have hfresh : Fresh env v L N := .new hn
  obtain ⟨A, M, hA⟩ := hN.live.sim
  refine PyRel.bind (R := fun r r' : Perc α × Option Bool => Agree r.1 r'.1 ∧ r'.2 = r.2) ?_ ?_
  · have hp := place_put (env := env) (v := v) e1 d
    obtain ⟨N1, b, p1, _, _, hf⟩ := hN.live.place d
    have hb : b = true := by
      cases b with
      | true => rfl
      | false =>
        have := (hf rfl).1
        rw [hfresh.live.2.1] at this
        have hL := hN.reach.sim.1
        have h0 : (0 : Int) < L * L := by exact_mod_cast Nat.mul_pos hL hL
        exact absurd this (by cases v <;> simp only [initBudget] <;> omega)
    subst hb
    have hfl := place_on_empty M hA.inv hfresh.live.2.2.2 p1
    simp only [answer]
    rw [p1] at hp ⊢
    cases hq : S'.placeOneSite env v d with
    | error x => rw [hq] at hp; exact hp
    | ok r' =>
      rw [hq] at hp
      obtain ⟨h1, h2, h3, h4⟩ := hp
      exact ⟨⟨h2, h4 (Or.inl hfl), h3⟩, congrArg some h1⟩
  · rintro ⟨R, b⟩ ⟨R', b'⟩ ⟨h1, h2⟩
    simp only at h1 h2
    subst h2
    refine (answers_agree ops h1 ho).bind ?_
    rintro ⟨R, bs⟩ ⟨R', bs'⟩ ⟨h3, h4⟩
    simp only at h3 h4
    subst h4
    exact ⟨h3.looks, rfl⟩

/-- C28: in particular a complete `run_once()`. -/
theorem C28_run_as_new {S S' N : Perc α} {draws draws' : Nat → Nat} (h : DefReach env v L S) (hr : S.reset env v draws = .ok S')
    (hn : Perc.new env L draws' = .ok N) (hids : N.siteIds = S'.siteIds) (fuel : Nat) (ds : Nat → Draw) :
    PyRel (fun R R' : Perc α => R'.lat = R.lat ∧ R'.pool = R.pool ∧ R'.entropyList = R.entropyList ∧ R'.orderWrapList = R.orderWrapList ∧
      R'.orderLargestList = R.orderLargestList ∧ R'.pcOccupied = R.pcOccupied ∧ R'.pcBonds = R.pcBonds ∧ R'.pcSites = R.pcSites ∧
      R'.seqRecord = R.seqRecord ∧ R'.xOccupied = R.xOccupied ∧ R'.yOccupied = R.yOccupied ∧ R'.shortestP = R.shortestP)
      (N.runOnceV env v fuel ds) (S'.runOnceV env v fuel ds) := by
  obtain ⟨e, f1, f2, _⟩ := reset_new h.reach hr hn
  have hS' : Live env v L S' := h.live.reset_ok hr
  have hN : DefReach env v L N := .new hn
  have e1 : S' = N.put S' := by
    have hm : S'.maxIter = N.maxIter := hS'.maxIter.trans hN.live.maxIter.symm
    rw [e]
    simp only [← hids, hm]
    rfl
  have := runOnceV_agree (env := env) (v := v) e1 fuel ds
  revert this
  cases N.runOnceV env v fuel ds with
  | error x => cases S'.runOnceV env v fuel ds <;> exact id
  | ok a => cases S'.runOnceV env v fuel ds with
    | error x => exact id
    | ok b =>
      rintro ⟨h1, _⟩
      obtain ⟨T, rfl⟩ : ∃ T, b = a.put T := ⟨b, h1⟩
      exact ⟨rfl, rfl, rfl, rfl, rfl, rfl, rfl, rfl, rfl, rfl, rfl, rfl⟩

/-- A new object with the site order of the reset object always exists, so the two theorems above apply to every `reset()`. -/
example {S S' : Perc α} {draws : Nat → Nat} (h : DefReach env v L S) (hr : S.reset env v draws = .ok S') :
    ∃ draws' N, Perc.new env L draws' = .ok N ∧ N.siteIds = S'.siteIds := by
  have hF : Fresh env v L S' := .reset h hr
  have hp : S'.siteIds.Perm (List.range (L * L)) := by
    obtain ⟨_, A, M, hA⟩ := h.reach.sim
    have hlen : ∀ {S1 : Perc α}, S.resetBase draws = .ok S1 → S1.lat.length ^ 2 = L * L := by
      intro S1 hb
      obtain ⟨_, _, rfl⟩ := resetBase_ok M.lat hb
      show (mkLat L LV.init).length ^ 2 = _
      rw [mkLat_length, Nat.pow_two]
    cases v with
    | l0 => exact (hF.perm rfl).1
    | sp => exact (hF.perm rfl).1
    | l1 =>
      simp only [Perc.reset] at hr
      cases hb : S.resetBase draws with
      | error e => rw [hb] at hr; cases hr
      | ok S1 =>
        rw [hb] at hr
        rw [← Except.ok.inj hr]
        show List.Perm (List.range (S1.lat.length ^ 2)) _
        rw [hlen hb]
    | l2 =>
      simp only [Perc.reset] at hr
      cases hb : S.resetBase draws with
      | error e => rw [hb] at hr; cases hr
      | ok S1 =>
        rw [hb] at hr
        rw [← Except.ok.inj hr]
        show List.Perm (List.range (S1.lat.length ^ 2)) _
        rw [hlen hb]
  obtain ⟨draws', hd⟩ := pyShuffle_surj hp.symm
  obtain ⟨rev, e, _⟩ := new_ok env h.reach.sim.1 draws'
  exact ⟨draws', _, e, hd⟩

/-- Leak (not part of C28, and the reason why the sequences above start with a placement): `selected_id` survives `reset()`, so
`detect_wrapping()` raises a TypeError on a new object but not right after a reset. -/
theorem C28_stale_selection {S S' N : Perc α} {draws draws' : Nat → Nat} (h : Reach env v L S) (hs : S.selected ≠ none)
    (hr : S.reset env v draws = .ok S') (hn : Perc.new env L draws' = .ok N) :
    N.detectWrapping = .error .typeError ∧ ∃ T, S'.detectWrapping = .ok (T, false) := by
  constructor
  · obtain ⟨_, rev, rfl, _⟩ := new_inv hn; rfl
  · obtain ⟨_, _, _, h4, _⟩ := reset_new h hr hn
    have T0 : Trace env v L S' [] := .start h hr
    obtain ⟨_, A, M, hA, _⟩ := T0.sim
    obtain ⟨T, w, e⟩ := detectWrapping_ok M hA.inv (by rw [h4]; exact hs)
    obtain ⟨_, _, _, A', _, M', hw, _⟩ := detectWrapping_steps M hA.inv e
    have T1 := T0.detect e
    cases w with
    | false => exact ⟨T, e⟩
    | true =>
      obtain ⟨_, s, u, hu, hwk⟩ := T1.aw_iff.1 (by rw [M'.aw, hw])
      have : ∀ {t u}, Walk L (· ∈ ([] : List Nat)) s t u → False := by
        intro t u hwk
        cases hwk with
        | nil h => cases h
        | snoc d _ h => cases h
      exact (this hwk).elim

end SqPerc
