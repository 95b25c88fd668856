import Verif.Props.ShortestPath
import Verif.Props.Clusters
/-
Property C63: when `detect_wrapping` has to be called.
-/
namespace SqPerc

variable {α : Type} {L k : Nat} {env : Env α} {v : Variant} {S S' S1 S2 : Perc α} {V V' : LV} {P P' : PV} {r : Int}

/-- If a cluster does not wrap, the relative indices of neighbours in it differ by the unit step. -/
theorem Lift.step_of_not_wraps (h : Lift L V) (C : Core L V P) {s : Nat} {d : Dir} (hs : VOcc L V s) (hn : VOcc L V (nbr L s d))
    (hw : ¬ WrapsAt L (VOcc L V) s) : V.dr s (nbr L s d) = d.vec := by
  by_contra hne
  have w1 := h s _ hs hn (C.sg_nbr hs hn).symm
  have w2 := (Walk.step (occ := VOcc L V) d hs hn).reverse vocc_lt
  exact hw ⟨_, fun h0 => hne (by rw [← sub_eq_add_neg, sub_eq_zero] at h0; exact h0), w1.append w2⟩

/-- A cluster wraps at each of its sites. -/
theorem WrapsAt.of_walk {occ : Nat → Prop} (hocc : ∀ s, occ s → s < L * L) {s t : Nat} {w : Int × Int} (hw : Walk L occ s t w)
    (h : WrapsAt L occ t) : WrapsAt L occ s := by
  obtain ⟨v, hv, h⟩ := h
  refine ⟨w + v + -w, ?_, (hw.append h).append (hw.reverse hocc)⟩
  intro h0
  apply hv
  have : w + v + -w = v := by abel
  rwa [this] at h0

/-- If none of the clusters merged by the placement of `k` wraps, and the relative indices around `k` match, the merged cluster does not
wrap. -/
theorem not_wrapsAt_of_not_hit (hL : 3 ≤ L) (E : PlaceEffect L k r V V' P P') (C : Core L V P) (hk : k < L * L) (hu : V.sg k = -1)
    (hl : Lift L V) (hnw : ∀ e, VOcc L V (nbr L k e) → ¬ WrapsAt L (VOcc L V) (nbr L k e)) (hn : ¬ Hit L V' k) :
    ¬ WrapsAt L (VOcc L V') k := by
  have C' := E.core C hk hu
  have hl' := Lift.place hL E C hk hu hl
  have hko : VOcc L V' k := (E.occ_iff C hk k).2 (Or.inr rfl)
  rw [not_hit_iff] at hn
  have hk' : ∀ d, VOcc L V' (nbr L k d) → V'.dr k (nbr L k d) = d.vec := by
    intro d ho
    obtain ⟨h1, h2⟩ := hn d (C'.sg_nbr hko ho)
    exact hl'.unit hL C' hko ho h1 h2
  have key : ∀ s d, VOcc L V' s → V'.sg s = r → VOcc L V' (nbr L s d) → V'.dr s (nbr L s d) = d.vec := by
    intro s d hs hr hd
    by_cases hsk : s = k
    · subst hsk; exact hk' d hd
    by_cases hdk : nbr L s d = k
    · have : nbr L k d.opp = s := by rw [← hdk, nbr_opp hs.1]
      have h1 := hk' d.opp (by rw [this]; exact hs)
      rw [this, Dir.vec_opp] at h1
      rw [hdk, ← LV.dr_neg, h1, neg_neg]
    · have h1 : VOcc L V s := ((E.occ_iff C hk s).1 hs).resolve_right hsk
      have h2 : VOcc L V (nbr L s d) := ((E.occ_iff C hk _).1 hd).resolve_right hdk
      rw [E.dr_eq h1 h2 (C.sg_nbr h1 h2).symm]
      obtain ⟨e, g1, _, g3, _⟩ := (E.toRoot C hk hu hs hr).resolve_left hsk
      exact hl.step_of_not_wraps C h1 h2 fun hw => hnw e g1 (.of_walk vocc_lt (hl _ s g1 h1 g3) hw)
  rintro ⟨w, hw, hwalk⟩
  have gen : ∀ {t w}, Walk L (VOcc L V') k t w → V'.sg t = r ∧ w = V'.dr k t := by
    intro t w h
    induction h with
    | nil _ => exact ⟨E.sgSelf, (V'.dr_self _).symm⟩
    | @snoc t w d h ho ih =>
      refine ⟨(C'.sg_nbr h.occ_right ho).trans ih.1, ?_⟩
      rw [ih.2, ← key t d h.occ_right ih.1 ho, LV.dr_add]
  exact hw ((gen hwalk).2.trans (V'.dr_self k))

/-- C63: whatever happened before, as long as wrapping has not been reported and none of the clusters next to the newly placed site wraps,
`detect_wrapping()` right after the placement returns True exactly when the cluster of the new site wraps.  Calls of
`detect_wrapping()` after earlier placements are not needed. -/
theorem C63_closing_site (hL : 3 ≤ L) (h : Reach env v L S) (haw : S.afterWrapping = false) {d : Draw} {b w : Bool} {k : Nat}
    (hp : S.placeOneSite env v d = .ok (S1, b)) (hf : S1.selectionFlag = some .success) (hk : S1.selected = some k)
    (hnw : ∀ e, S.Occ (nbr L k e) → ¬ WrapsAt L S.Occ (nbr L k e)) (hd : S1.detectWrapping = .ok (S2, w)) :
    (w = true ↔ WrapsAt L S1.Occ k) ∧ (w = true → S2.getPc env = S1.occupationProb env ∧ S2.getSiteCountPc = (siteComp L S1.Occ k).card ∧
      ∀ e, S2.getBondCountPc = (bondComp L S1.Occ (bondAt L k e)).card) ∧ (w = false → S2 = S1) := by
  obtain ⟨_, A, M, hA⟩ := h.sim
  obtain ⟨_, V1, hV, hc⟩ := placeOneSite_sim M hA.inv hp
  rcases hc with ⟨_, _, k', r, V', P', hkl, hu, E, hR, hsel, M'⟩ | ⟨hf', _⟩ | ⟨hf', _⟩
  · have : k' = k := Option.some.inj (hsel.symm.trans hk)
    subst this
    have hu1 : V1.sg k' = -1 := by rw [hV.1]; exact hu
    have hA0 : AReach env L { A with V := V1 } := .step hA (.tick hV)
    have C : Core L V1 A.P := hA0.inv.core
    have hA1 : AReach env L (({ A with V := V1 } : Abs α).placed env L k' r V' P') := .step hA0 (.place hkl hu1 E hR)
    have e0 : S.Occ = VOcc L V1 := by rw [M.occ_eq, ← hV.vocc]
    have e1 : S1.Occ = VOcc L V' := M'.occ_eq
    have hko : VOcc L V' k' := (E.occ_iff C hkl k').2 (Or.inr rfl)
    rcases detectWrapping_sim' M' hA1.inv hd with ⟨ha, _⟩ | ⟨_, k2, hk2, ⟨hn, rfl, rfl⟩ | ⟨_, hH, rfl, M2⟩⟩
    · exact absurd (ha.symm.trans (M.aw.symm.trans haw)) (by simp)
    · have : k2 = k' := (Option.some.inj hk2).symm
      subst this
      refine ⟨⟨fun h => (by cases h), fun hw => ?_⟩, fun h => (by cases h), fun _ => rfl⟩
      rw [e1] at hw
      rw [e0] at hnw
      exact absurd hw (not_wrapsAt_of_not_hit hL E C hkl hu1 (hA0.wrap.lift hL) hnw hn)
    · have : k2 = k' := (Option.some.inj hk2).symm
      subst this
      have C' : Core L V' P' := hA1.inv.core
      refine ⟨⟨fun _ => ?_, fun _ => rfl⟩, fun _ => ⟨?_, ?_, fun e => ?_⟩, fun h => (by cases h)⟩
      · rw [e1]; exact (hA1.wrap.lift hL).wraps_of_hit hko hH
      · rw [Perc.getPc, if_pos (show S2.afterWrapping = true from M2.aw), M2.pco, M2.lat, Perc.occupationProb, M'.count, M'.lat, mkLat_siteCount, mkLat_siteCount]; rfl
      · rw [Perc.getSiteCountPc, M2.pcs, e1, C'.siteComp_card hko]; rfl
      · rw [Perc.getBondCountPc, M2.pcb, e1, C'.bondComp_card hko]; rfl
  · rw [hf'] at hf; cases hf
  · rw [hf'] at hf; cases hf

/-- Before anything wraps, wrapping has not been reported. -/
theorem Reach.aw_false (h : Reach env v L S) (hw : 3 ≤ L → ¬ Wraps L S.Occ) : S.afterWrapping = false := by
  obtain ⟨_, A, M, hA⟩ := h.sim
  rw [M.aw]
  cases ha : A.aw with
  | false => rfl
  | true =>
    obtain ⟨s, _, _, h3⟩ := hA.wrap.on ha
    exact absurd (M.occ_eq ▸ h3.wraps) (hw (hA.three ha))

/-- A detection after a placement that closes no loop changes nothing. -/
theorem detect_idle (h : Reach env v L S) {d : Draw} {b : Bool} (hp : S.placeOneSite env v d = .ok (S1, b))
    (hf : S1.selectionFlag = some .success) (hw : 3 ≤ L → ¬ Wraps L S1.Occ) : S1.detectWrapping = .ok (S1, false) := by
  have h1 : Reach env v L S1 := .step (.place d) h (by simp only [SqPerc.step]; rw [hp]; rfl)
  obtain ⟨_, A1, M1, hA1⟩ := h1.sim
  have haw := h1.aw_false hw
  have hsel : S1.selected ≠ none := by
    obtain ⟨_, A, M, hA⟩ := h.sim
    obtain ⟨_, V1, hV, hc⟩ := placeOneSite_sim M hA.inv hp
    rcases hc with ⟨_, _, k', r, V', P', _, _, _, _, hs, _⟩ | ⟨hf', _⟩ | ⟨hf', _⟩
    · rw [hs]; simp
    · rw [hf'] at hf; cases hf
    · rw [hf'] at hf; cases hf
  obtain ⟨S2, w, hd⟩ := detectWrapping_ok M1 hA1.inv hsel
  rcases detectWrapping_sim' M1 hA1.inv hd with ⟨ha, _⟩ | ⟨ha, k2, hk2, ⟨hn, rfl, rfl⟩ | ⟨h0, hH, rfl, M2⟩⟩
  · rw [← M1.aw, haw] at ha; cases ha
  · exact hd
  · have hA2 : AReach env L (A1.detected k2) := .step hA1 (.detect ha hk2 h0 hH)
    have hL : 3 ≤ L := hA2.three rfl
    obtain ⟨s, _, _, h3⟩ := hA2.wrap.on rfl
    exact absurd (M1.occ_eq ▸ h3.wraps) (hw hL)

/-- C63: as long as nothing wraps, calls of `detect_wrapping()` make no difference: every state reached by any history of calls in which
the occupied sites do not wrap (or `L ≤ 2`) is also reached with detection after every placement.  So everything proved about such histories (C17, C21,
C25–C27, …) holds if `detect_wrapping()` is first called right after the placement that closes the loop. -/
theorem C63_detection_optional (h : Reach env v L S) (hw : 3 ≤ L → ¬ Wraps L S.Occ) : ∃ seq, Trace env v L S seq := by
  induction h with
  | new h => exact ⟨[], .new h⟩
  | @step S S' op hR h ih =>
    cases hop : op.isReset with
    | true =>
      cases op with
      | reset draws => exact ⟨[], .start hR h⟩
      | _ => cases hop
    | false =>
      have hw0 : 3 ≤ L → ¬ Wraps L S.Occ := fun hL h0 => hw hL (h0.mono fun s hs => C10_occupied_stays hR h hop hs)
      obtain ⟨seq, T⟩ := ih hw0
      cases op with
      | reset draws => cases hop
      | place d =>
        simp only [SqPerc.step] at h
        cases hp : S.placeOneSite env v d with
        | error e => rw [hp] at h; cases h
        | ok res =>
          rw [hp] at h
          obtain ⟨S1, b⟩ := res
          have : S1 = S' := Except.ok.inj h
          subst this
          by_cases hf : S1.selectionFlag = some .success
          · obtain ⟨k, _, _, T'⟩ := T.place hp hf (detect_idle hR hp hf hw)
            exact ⟨_, T'⟩
          · exact ⟨_, T.skipped hp hf⟩
      | detect =>
        simp only [SqPerc.step] at h
        cases hd : S.detectWrapping with
        | error e => rw [hd] at h; cases h
        | ok res =>
          rw [hd] at h
          obtain ⟨S1, w⟩ := res
          have : S1 = S' := Except.ok.inj h
          subst this
          exact ⟨_, T.detect hd⟩
      | shuffle draws => exact ⟨_, T.shuffle h⟩
      | setIds ids b draws => exact ⟨_, T.setIds h⟩
      | setIndices ids b draws => exact ⟨_, T.setIndices h⟩
      | swapIds i j => exact ⟨_, T.swapIds h⟩
      | runOnce fuel ds =>
        simp only [SqPerc.step, Perc.runOnceV] at h
        have gen : S.runOnce env v fuel ds = .ok S' → ∃ seq, Trace env v L S' seq := by
          intro h
          obtain ⟨_, _, _, T', _⟩ := T.runOnce_data h
          exact ⟨_, T'⟩
        cases v with
        | sp =>
          obtain ⟨_, _, R⟩ := spRunOnce_run T h
          exact ⟨_, R.trace⟩
        | l0 => exact gen h
        | l1 => exact gen h
        | l2 => exact gen h
      | testRunOnce fuel ds =>
        simp only [SqPerc.step, Perc.testRunOnce] at h
        cases hr : Perc.testRunLoop env v fuel ds S with
        | error e => rw [hr] at h; cases h
        | ok S1 =>
          rw [hr] at h
          rw [← Except.ok.inj h]
          obtain ⟨_, T'⟩ := T.testRunLoop fuel hr
          exact ⟨_, T'.data false S1.occProbList S1.entropyList S1.orderWrapList S1.orderLargestList S1.shortestP⟩
  | @write S l _ _ _ _ ih =>
    obtain ⟨seq, T⟩ := ih hw
    exact ⟨seq, T.write l⟩
  | @caught S e op hR h _ ih =>
    have hw0 : 3 ≤ L → ¬ Wraps L S.Occ := fun hL h0 => hw hL (h0.mono fun s hs => C10_occupied_stays_raised hR h hs)
    obtain ⟨seq, T⟩ := ih hw0
    obtain ⟨seq', T'⟩ := T.stepRaised h
    exact ⟨_, T'⟩

/-- C63: in particular, if the occupied sites did not wrap before a placement, `detect_wrapping()` right after it returns whether they wrap
now. -/
theorem C63_last_call (hL : 3 ≤ L) (h : Reach env v L S) (hnw : ¬ Wraps L S.Occ) {d : Draw} {b w : Bool}
    (hp : S.placeOneSite env v d = .ok (S1, b)) (hf : S1.selectionFlag = some .success) (hd : S1.detectWrapping = .ok (S2, w)) :
    w = true ↔ Wraps L S1.Occ := by
  obtain ⟨seq, T⟩ := C63_detection_optional h fun _ => hnw
  exact (C17_detect_exact hL T hp hf hd).1

/-- Walks that stay in a set on which a potential is consistent; `R` is closed under occupied steps. -/
theorem Walk.within {occ : Nat → Prop} {R : List Nat} {f : Nat → Int × Int}
    (hR : ∀ t ∈ R, ∀ d, occ (nbr L t d) → nbr L t d ∈ R ∧ f (nbr L t d) - f t = d.vec) {s t : Nat} {w : Int × Int} (hs : s ∈ R)
    (h : Walk L occ s t w) : t ∈ R ∧ w = f t - f s := by
  induction h with
  | nil _ => exact ⟨hs, by abel⟩
  | @snoc t w d h ho ih =>
    obtain ⟨h1, h2⟩ := hR t ih.1 d ho
    refine ⟨h1, ?_⟩
    rw [ih.2, ← h2]; abel

/-- L = 5: row 0 is completed without any detection, so the wrapping is missed; then row 2 is filled, still without detection.  The call
after its last site 14 finds the second loop. -/
example : ∃ S S1 S2 : Perc Unit, Reach demoEnv .l0 5 S ∧ S.afterWrapping = false ∧ S.placeOneSite demoEnv .l0 ⟨0, 0⟩ = .ok (S1, true) ∧
    S1.selectionFlag = some .success ∧ S1.selected = some 14 ∧ (∀ e, S.Occ (nbr 5 14 e) → ¬ WrapsAt 5 S.Occ (nbr 5 14 e)) ∧
    S1.detectWrapping = .ok (S2, true) ∧ Wraps 5 S.Occ ∧ S2.getSiteCountPc = 5 := by
  obtain ⟨S, h, hp⟩ := checkOps_reach (env := demoEnv) (v := .l0) (L := 5) (ops := placeInOrder [0, 1, 2, 3, 4, 10, 11, 12, 13, 14] 9)
    (p := fun S => (List.range 25).all (fun s => S.occB s == decide (s ∈ [0, 1, 2, 3, 4, 10, 11, 12, 13])) && (S.afterWrapping == false &&
      match S.placeOneSite demoEnv .l0 ⟨0, 0⟩ with
      | .ok r => r.2 && (r.1.selectionFlag == some .success && (r.1.selected == some 14 && match r.1.detectWrapping with
        | .ok q => q.2 && q.1.getSiteCountPc == 5
        | .error _ => false))
      | .error _ => false)) (by decide +kernel)
  simp only [Bool.and_eq_true] at hp
  obtain ⟨h1, h2, h3⟩ := hp
  have hocc : ∀ s, S.Occ s ↔ s ∈ [0, 1, 2, 3, 4, 10, 11, 12, 13] := by
    intro s
    by_cases hs : s < 25
    · have := List.all_eq_true.1 h1 s (List.mem_range.2 hs)
      rw [beq_iff_eq] at this
      rw [← Perc.occB_iff, this, decide_eq_true_iff]
    · constructor
      · intro ho; obtain ⟨_, A, M, hA⟩ := h.sim; exact absurd ((M.occ_iff s).1 ho).1 hs
      · intro hm; simp only [List.mem_cons, List.not_mem_nil, or_false] at hm; omega
  cases e1 : S.placeOneSite demoEnv .l0 ⟨0, 0⟩ with
  | error x => rw [e1] at h3; cases h3
  | ok r =>
    obtain ⟨S1, b⟩ := r
    rw [e1] at h3
    simp only [Bool.and_eq_true] at h3
    obtain ⟨h4, h5, h6, h7⟩ := h3
    cases e2 : S1.detectWrapping with
    | error x => rw [e2] at h7; cases h7
    | ok q =>
      obtain ⟨S2, w⟩ := q
      rw [e2] at h7
      simp only [Bool.and_eq_true, beq_iff_eq] at h5 h6 h7 h2
      have hr : ∀ t ∈ [10, 11, 12, 13], ∀ d, S.Occ (nbr 5 t d) → nbr 5 t d ∈ [10, 11, 12, 13] ∧
          (fun t : Nat => ((0, (t : Int)) : Int × Int)) (nbr 5 t d) - (fun t : Nat => ((0, (t : Int)) : Int × Int)) t = d.vec := by
        intro t ht d
        rw [hocc]
        revert t
        cases d <;> decide
      have hW : Wraps 5 S.Occ := by
        refine ⟨0, (0, 5), by decide, ?_⟩
        have w0 : Walk 5 S.Occ 0 0 0 := .nil ((hocc 0).2 (by decide))
        exact .snoc .right (.snoc .right (.snoc .right (.snoc .right (.snoc .right w0 ((hocc 1).2 (by decide))) ((hocc 2).2 (by decide)))
          ((hocc 3).2 (by decide))) ((hocc 4).2 (by decide))) ((hocc 0).2 (by decide))
      refine ⟨S, S1, S2, h, h2, by rw [e1, h4], h5, h6, ?_, by rw [e2, h7.1], hW, h7.2⟩
      rintro e ho ⟨w', hw', hwalk⟩
      have he : nbr 5 14 e ∈ [10, 11, 12, 13] := by
        rw [hocc] at ho
        revert ho
        cases e <;> decide
      have := (hwalk.within (f := fun t : Nat => (0, (t : Int))) hr he).2
      exact hw' (this.trans (sub_self _))

/-- L = 3: the sites 0, 1 are placed without detection; the first call of `detect_wrapping()`, after site 2, returns True. -/
example : ∃ S S1 S2 : Perc Unit, Reach demoEnv .l0 3 S ∧ ¬ Wraps 3 S.Occ ∧ S.placeOneSite demoEnv .l0 ⟨0, 0⟩ = .ok (S1, true) ∧
    S1.selectionFlag = some .success ∧ S1.detectWrapping = .ok (S2, true) := by
  obtain ⟨S, h, hp⟩ := checkOps_reach (env := demoEnv) (v := .l0) (L := 3) (ops := placeInOrder [0, 1, 2] 2)
    (p := fun S => (List.range 9).all (fun s => S.occB s == decide (s ∈ [0, 1])) &&
      match S.placeOneSite demoEnv .l0 ⟨0, 0⟩ with
      | .ok r => r.2 && (r.1.selectionFlag == some .success && match r.1.detectWrapping with
        | .ok q => q.2
        | .error _ => false)
      | .error _ => false) (by decide +kernel)
  simp only [Bool.and_eq_true] at hp
  obtain ⟨h1, h3⟩ := hp
  have hocc : ∀ s, S.Occ s → s ∈ [0, 1] := by
    intro s ho
    obtain ⟨_, A, M, hA⟩ := h.sim
    have := List.all_eq_true.1 h1 s (List.mem_range.2 ((M.occ_iff s).1 ho).1)
    rw [beq_iff_eq, Perc.occB_iff.2 ho] at this
    exact of_decide_eq_true this.symm
  cases e1 : S.placeOneSite demoEnv .l0 ⟨0, 0⟩ with
  | error x => rw [e1] at h3; cases h3
  | ok r =>
    obtain ⟨S1, b⟩ := r
    rw [e1] at h3
    simp only [Bool.and_eq_true] at h3
    obtain ⟨h4, h5, h7⟩ := h3
    cases e2 : S1.detectWrapping with
    | error x => rw [e2] at h7; cases h7
    | ok q =>
      obtain ⟨S2, w⟩ := q
      rw [e2] at h7
      refine ⟨S, S1, S2, h, ?_, by rw [e1, h4], by simpa using h5, by rw [e2, show w = true from h7]⟩
      rintro ⟨s, w', hw', hwalk⟩
      refine hw' (((hwalk.within (R := [0, 1]) (f := fun t : Nat => (0, (t : Int))) ?_ (hocc s hwalk.occ_left)).2).trans (sub_self _))
      intro t ht d ho
      replace ho := hocc _ ho
      clear hwalk
      revert t
      cases d <;> decide

end SqPerc
