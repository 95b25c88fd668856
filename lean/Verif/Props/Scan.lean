import Verif.Props.L1L2
/-
Property C60: the row scan of the relative indices.
-/
namespace SqPerc

variable {α : Type} {L : Nat} {env : Env α} {v : Variant} {S : Perc α}

/-- What the scan compares: column components of the relative indices of a site and its right neighbour in the same row. -/
def ScanOk (L : Nat) (V : LV) (r c : Nat) : Prop :=
  VOcc L V (r * L + c) → VOcc L V (r * L + (c + 1)) →
    ((V.rel (r * L + c)).c2 - (V.rel (r * L + (c + 1))).c2).natAbs = 1 ∨ (((V.rel (r * L + c)).c2 - (V.rel (r * L + (c + 1))).c2).natAbs : Int) = L - 1

theorem assert_step {A Q R D : Prop} [Decidable D] {X : Py Unit} (hD : D ↔ Q) (hA : A ↔ Q ∧ R)
    (ih : (R → X = .ok ()) ∧ (¬ R → X = .error .assertionError)) :
    (A → (do pyAssert (decide D); X) = .ok ()) ∧ (¬ A → (do pyAssert (decide D); X) = .error .assertionError) := by
  rw [hA, ← hD]
  by_cases h : D
  · simp only [h, decide_true, true_and]; exact ih
  · simp only [h, decide_false, false_and, false_implies, true_and, not_false_eq_true, true_implies]; rfl

theorem scanRow_eq {V : LV} {P : PV} (C : Core L V P) {r : Nat} (hr : r < L) (n : Nat) : ∀ {a : Nat} {prev : Option Site}, a + n = L →
    (prev = none ∧ (a = 0 ∨ ¬ VOcc L V (r * L + (a - 1))) ∨ 0 < a ∧ VOcc L V (r * L + (a - 1)) ∧ prev = some (mkSite L V (r * L + (a - 1)))) →
    ((∀ c, a ≤ c + 1 → c + 1 < L → ScanOk L V r c) → (mkLat L V).scanRow r (List.range' a n) prev = .ok ()) ∧
    (¬ (∀ c, a ≤ c + 1 → c + 1 < L → ScanOk L V r c) → (mkLat L V).scanRow r (List.range' a n) prev = .error .assertionError) := by
  induction n with
  | zero =>
    intro a prev ha _
    exact ⟨fun _ => rfl, fun h => absurd (fun c h1 h2 => by omega) h⟩
  | succ n ih =>
    intro a prev ha hp
    have hal : a < L := by omega
    rw [List.range'_succ]
    simp only [Lattice.scanRow, mkLat_length]
    rw [getSite_mk (rc_lt hr hal)]
    show (_ → (if V.sg (r * L + a) < 0 then _ else _) = _) ∧ (_ → (if V.sg (r * L + a) < 0 then _ else _) = _)
    by_cases hg : V.sg (r * L + a) < 0
    · rw [if_pos hg]
      have hno : ¬ VOcc L V (r * L + a) := fun h => by have := h.2; omega
      have e : (∀ c, a ≤ c + 1 → c + 1 < L → ScanOk L V r c) ↔ (∀ c, a + 1 ≤ c + 1 → c + 1 < L → ScanOk L V r c) := by
        refine ⟨fun h c h1 h2 => h c (by omega) h2, fun h c h1 h2 => ?_⟩
        rcases Nat.eq_or_lt_of_le h1 with h3 | h3
        · intro _ h4; rw [← h3] at h4; exact absurd h4 hno
        · exact h c (by omega) h2
      rw [e]
      exact ih (by omega) (.inl ⟨rfl, .inr (by simpa using hno)⟩)
    · rw [if_neg hg]
      have ho : VOcc L V (r * L + a) := ⟨rc_lt hr hal, by omega⟩
      have next : (0 < a + 1 ∧ VOcc L V (r * L + (a + 1 - 1)) ∧ some (mkSite L V (r * L + a)) = some (mkSite L V (r * L + (a + 1 - 1)))) := by
        simpa using ho
      rcases hp with ⟨rfl, hp⟩ | ⟨h0, hpo, rfl⟩
      · have e : (∀ c, a ≤ c + 1 → c + 1 < L → ScanOk L V r c) ↔ (∀ c, a + 1 ≤ c + 1 → c + 1 < L → ScanOk L V r c) := by
          refine ⟨fun h c h1 h2 => h c (by omega) h2, fun h c h1 h2 => ?_⟩
          rcases Nat.eq_or_lt_of_le h1 with h3 | h3
          · rcases hp with hp | hp
            · omega
            · intro h4 _
              rw [show a - 1 = c by omega] at hp
              exact absurd h4 hp
          · exact h c (by omega) h2
        rw [e]
        exact ih (by omega) (.inr next)
      · obtain ⟨b, rfl⟩ : ∃ b, a = b + 1 := ⟨a - 1, by omega⟩
        rw [Nat.add_sub_cancel] at hpo ⊢
        have hsg : V.sg (r * L + (b + 1)) = V.sg (r * L + b) := by
          have hn : nbr L (r * L + b) .right = r * L + (b + 1) := by rw [nbr_right_rc (by omega), Nat.mod_eq_of_lt hal]
          rw [← hn]
          exact C.sg_nbr hpo (by rw [hn]; exact ho)
        have hif : (mkSite L V (r * L + (b + 1))).gid = (mkSite L V (r * L + b)).gid ∧ (mkSite L V (r * L + b)).gid ≥ 0 ∧
            (mkSite L V (r * L + (b + 1))).gid ≥ 0 := ⟨hsg, hpo.2, ho.2⟩
        simp only [if_pos hif]
        refine assert_step (Q := ScanOk L V r b) (R := ∀ c, b + 1 + 1 ≤ c + 1 → c + 1 < L → ScanOk L V r c) ⟨fun h _ _ => ?_, fun h => ?_⟩ ?_
          (ih (by omega) (.inr next))
        · have h' : (((V.rel (r * L + b)).c2 - (V.rel (r * L + (b + 1))).c2).natAbs : Int) = 1 ∨
              (((V.rel (r * L + b)).c2 - (V.rel (r * L + (b + 1))).c2).natAbs : Int) = (L : Int) - 1 := h
          omega
        · have h' := h hpo ho
          show (((V.rel (r * L + b)).c2 - (V.rel (r * L + (b + 1))).c2).natAbs : Int) = 1 ∨
              (((V.rel (r * L + b)).c2 - (V.rel (r * L + (b + 1))).c2).natAbs : Int) = (L : Int) - 1
          omega
        · refine ⟨fun h => ⟨h b (by omega) (by omega), fun c h1 h2 => h c (by omega) h2⟩, fun h c h1 h2 => ?_⟩
          rcases Nat.eq_or_lt_of_le h1 with h3 | h3
          · have : c = b := by omega
            rw [this]; exact h.1
          · exact h.2 c (by omega) h2

theorem forM_cases {β : Type} {f : β → Py Unit} {p : β → Prop} (l : List β)
    (h : ∀ x ∈ l, (p x → f x = .ok ()) ∧ (¬ p x → f x = .error .assertionError)) :
    ((∀ x ∈ l, p x) → l.forM f = .ok ()) ∧ (¬ (∀ x ∈ l, p x) → l.forM f = .error .assertionError) := by
  induction l with
  | nil => exact ⟨fun _ => rfl, fun h => absurd (by simp) h⟩
  | cons a l ih =>
    obtain ⟨h1, h2⟩ := h a (by simp)
    obtain ⟨i1, i2⟩ := ih fun x hx => h x (by simp [hx])
    show (_ → (f a >>= fun _ => l.forM f) = _) ∧ (_ → (f a >>= fun _ => l.forM f) = _)
    by_cases hp : p a
    · rw [h1 hp]
      refine ⟨fun q => i1 fun x hx => q x (by simp [hx]), fun q => i2 fun q' => q fun x hx => ?_⟩
      rcases List.mem_cons.1 hx with rfl | hx
      · exact hp
      · exact q' x hx
    · rw [h2 hp]
      exact ⟨fun q => absurd (q a (by simp)) hp, fun _ => rfl⟩

theorem testRowColScan_eq {V : LV} {P : PV} (C : Core L V P) :
    ((∀ r < L, ∀ c, c + 1 < L → ScanOk L V r c) → (mkLat L V).testRowColScan = .ok ()) ∧
    (¬ (∀ r < L, ∀ c, c + 1 < L → ScanOk L V r c) → (mkLat L V).testRowColScan = .error .assertionError) := by
  have h := forM_cases (f := fun rr => (mkLat L V).scanRow rr (List.range L) none) (p := fun r => ∀ c, c + 1 < L → ScanOk L V r c) (List.range L) (by
    intro r hr
    have := scanRow_eq C (List.mem_range.1 hr) L (a := 0) (prev := none) (by omega) (.inl ⟨rfl, .inl rfl⟩)
    rw [← List.range_eq_range'] at this
    simpa using this)
  simp only [List.mem_range] at h
  exact h

/-- C60: in every reachable state `test_rwo_col_scan()` either passes or raises AssertionError, and it passes exactly when any two occupied
sites that are next to each other in a row (not across the boundary) have relative indices whose column components differ by 1 or
`L - 1`. -/
theorem C60_scan_exact (h : Reach env v L S) :
    (S.lat.testRowColScan = .ok () ∨ S.lat.testRowColScan = .error .assertionError) ∧
    (S.lat.testRowColScan = .ok () ↔ ∀ r c st tt, r < L → c + 1 < L → S.Occ (r * L + c) → S.Occ (r * L + (c + 1)) →
      S.lat.getSite (r * L + c) = .ok st → S.lat.getSite (r * L + (c + 1)) = .ok tt →
      (st.rel.c2 - tt.rel.c2).natAbs = 1 ∨ (st.rel.c2 - tt.rel.c2).natAbs = L - 1) := by
  obtain ⟨_, A, M, hA⟩ := h.sim
  obtain ⟨h1, h2⟩ := testRowColScan_eq hA.inv.core
  rw [← M.lat] at h1 h2
  have key : (∀ r < L, ∀ c, c + 1 < L → ScanOk L A.V r c) ↔ ∀ r c st tt, r < L → c + 1 < L → S.Occ (r * L + c) → S.Occ (r * L + (c + 1)) →
      S.lat.getSite (r * L + c) = .ok st → S.lat.getSite (r * L + (c + 1)) = .ok tt →
      (st.rel.c2 - tt.rel.c2).natAbs = 1 ∨ (st.rel.c2 - tt.rel.c2).natAbs = L - 1 := by
    rw [M.occ_eq, M.lat]
    constructor
    · intro q r c st tt hr hc o1 o2 e1 e2
      rw [getSite_mk o1.1] at e1
      rw [getSite_mk o2.1] at e2
      rw [← Except.ok.inj e1, ← Except.ok.inj e2]
      have := q r hr c hc o1 o2
      show ((A.V.rel _).c2 - (A.V.rel _).c2).natAbs = 1 ∨ ((A.V.rel _).c2 - (A.V.rel _).c2).natAbs = _
      omega
    · intro q r hr c hc o1 o2
      have := q r c _ _ hr hc o1 o2 (getSite_mk o1.1) (getSite_mk o2.1)
      have : ((A.V.rel (r * L + c)).c2 - (A.V.rel (r * L + (c + 1))).c2).natAbs = 1 ∨ ((A.V.rel (r * L + c)).c2 - (A.V.rel (r * L + (c + 1))).c2).natAbs = L - 1 := this
      omega
  rw [← key]
  by_cases hq : ∀ r < L, ∀ c, c + 1 < L → ScanOk L A.V r c
  · exact ⟨.inl (h1 hq), fun _ => hq, h1⟩
  · exact ⟨.inr (h2 hq), fun e => absurd (e.symm.trans (h2 hq)) (by simp), fun e => absurd e hq⟩

/-- C60: as long as no closed walk through occupied sites goes around the lattice in the direction of the rows (in particular as long as
nothing wraps), the scan passes, in every history and however often wrapping was tested. -/
theorem C60_scan_passes (h : Reach env v L S) (hw : ∀ s w, Walk L S.Occ s s w → w.2 = 0) : S.lat.testRowColScan = .ok () := by
  obtain ⟨_, A, M, hA⟩ := h.sim
  rw [M.occ_eq] at hw
  rw [M.lat]
  refine (testRowColScan_eq hA.inv.core).1 fun r hr c hc o1 o2 => ?_
  have hn : nbr L (r * L + c) .right = r * L + (c + 1) := by rw [nbr_right_rc (by omega), Nat.mod_eq_of_lt hc]
  have hsg : A.V.sg (r * L + (c + 1)) = A.V.sg (r * L + c) := by
    rw [← hn]; exact hA.inv.core.sg_nbr o1 (by rw [hn]; exact o2)
  rcases Nat.lt_or_ge 2 L with hL | hL
  · have hop : nbr L (nbr L (r * L + c) .right) .left = r * L + c := nbr_opp (d := .right) o1.1
    have w1 := hA.wrap.lift hL _ _ o1 o2 hsg.symm
    have w2 := Walk.step (L := L) (occ := VOcc L A.V) .left o2 (by rw [← hn, hop]; exact o1)
    rw [← hn, hop, hn] at w2
    have := hw _ _ (w1.append w2)
    unfold LV.dr Idx.pr at this
    simp only [Prod.snd_add, Prod.snd_sub, Dir.vec] at this
    left; omega
  · have := (hA.wrap.flat hL).1 _ _ o1 o2 hsg.symm
    have := congrArg Prod.snd this
    unfold LV.dr Idx.pr at this
    rw [sidx_rc hc, sidx_rc (by omega : c < L)] at this
    simp only [Prod.snd_sub] at this
    left; push_cast at this; omega

/-- C60: in particular the scan passes as long as nothing wraps. -/
theorem C60_scan_before_wrapping (h : Reach env v L S) (hw : ¬ Wraps L S.Occ) : S.lat.testRowColScan = .ok () :=
  C60_scan_passes h fun s w hs => by
    by_contra h0
    exact hw ⟨s, w, fun e => h0 (by rw [e]; rfl), hs⟩

/-- C60: after wrapping the scan can raise, although the state is reached with `detect_wrapping()` after every placement. -/
theorem C60_scan_can_fail : ∃ S : Perc Unit, Reach demoEnv .l0 4 S ∧ S.afterWrapping = true ∧ S.lat.testRowColScan = .error .assertionError := by
  obtain ⟨S, h, hp⟩ := checkOps_reach (env := demoEnv) (v := .l0) (L := 4) (ops := placeDetect [13, 14, 0, 3, 6, 1, 11, 2, 10, 7] 10)
    (p := fun S => S.afterWrapping && !isOk S.lat.testRowColScan ()) (by decide +kernel)
  simp only [Bool.and_eq_true, Bool.not_eq_true'] at hp
  refine ⟨S, h, hp.1, ((C60_scan_exact h).1).resolve_left fun e => ?_⟩
  rw [e] at hp
  exact absurd hp.2 (by decide)

/-- A state to which the passing theorem applies: two neighbours in a row and nothing wraps; and the scan does compare them, for it raises
when the relative index of one of them is changed. -/
example : ∃ (S : Perc Unit) (seq : List Nat), Trace demoEnv .l0 3 S seq ∧ S.Occ 0 ∧ S.Occ 1 ∧ ¬ Wraps 3 S.Occ ∧
    isOk (S.lat.setRelativeIndex 0 ⟨7, 7⟩ >>= Lattice.testRowColScan) () = false := by
  obtain ⟨S, seq, T, hp⟩ := checkTrace_trace (env := demoEnv) (v := .l0) (L := 3) (ids := [0, 1]) (n := 2)
    (p := fun S _ => S.occB 0 && S.occB 1 && !S.afterWrapping &&
      !isOk (S.lat.setRelativeIndex 0 ⟨7, 7⟩ >>= Lattice.testRowColScan) ()) (by decide +kernel)
  simp only [Bool.and_eq_true, Bool.not_eq_true', Perc.occB_iff] at hp
  obtain ⟨_, A, M, hA, I⟩ := T.sim
  refine ⟨S, seq, T, hp.1.1.1, hp.1.1.2, ?_, hp.2⟩
  rw [M.occ_eq, I.occ_eq]
  exact I.not_wraps (by decide) (by rw [← M.aw]; exact hp.1.2)

end SqPerc
