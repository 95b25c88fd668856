import Verif.Proof.Rules
import Verif.Proof.RunSeq
/-
How the counters `x_occupied` and `y_occupied` of the L1 and L2 classes are related to the number of calls of `place_one_site()`.
-/
namespace SqPerc

variable {α : Type} {env : Env α} {L : Nat} {S S' S1 : Perc α} {v : Variant} {d : Draw} {b : Bool} {A : Abs α}

/-- `5 L²` minus the budget is the number of calls so far that returned True. -/
def Tally (v : Variant) (L : Nat) (S : Perc α) : Prop :=
  (S.budget L v = 5 * (L * L : Nat) ∧ S.occupiedCount = 0 ∧ S.xOccupied = 0 ∧ (v = .l2 → S.yOccupied = 0)) ∨
  ((S.xOccupied : Int) + 1 ≤ 5 * (L * L : Nat) - S.budget L v ∧ 5 * (L * L : Nat) - S.budget L v ≤ S.occupiedCount + S.xOccupied ∧
    (v = .l2 → 5 * (L * L : Nat) - S.budget L v = S.occupiedCount + S.yOccupied))

theorem Tally.congr (T : Tally v L S) (h1 : S'.budget L v = S.budget L v) (h2 : S'.occupiedCount = S.occupiedCount)
    (h3 : S'.xOccupied = S.xOccupied) (h4 : S'.yOccupied = S.yOccupied) : Tally v L S' := by
  unfold Tally at *; rw [h1, h2, h3, h4]; exact T

theorem Live.none_occ (H : Live env v L S) (h : S.occupiedCount = 0) (s : Nat) : ¬ S.Occ s := by
  intro hs
  obtain ⟨A, M, hA⟩ := H.sim
  have hc : S.occupiedCount = occCount L S.Occ := by rw [M.count, M.occ_eq]; exact hA.count
  have hlt : s < L * L := by
    rw [M.occ_iff] at hs; exact hs.1
  have : 0 < occCount L S.Occ := Finset.card_pos.2 ⟨s, by simp [hlt, hs]⟩
  omega

theorem Tally.place (H : Live env v L S) (hv : v.plain = false) (T : Tally v L S) (h : S.placeOneSite env v d = .ok (S', b)) : Tally v L S' := by
  obtain ⟨S1, b1, p1, H1, ht, hf⟩ := H.place d
  have h' := h
  rw [p1] at h'
  obtain ⟨rfl, rfl⟩ := Prod.mk.inj (Except.ok.inj h')
  obtain ⟨A, M, hA⟩ := H.sim
  have hno := H.none_occ
  have key : (S1.xOccupied = S.xOccupied ∧ (v = .l2 → S1.yOccupied = S.yOccupied) ∧ S1.selectionFlag = some .emptySiteList) ∨
      (S1.xOccupied = S.xOccupied ∧ (v = .l2 → S1.yOccupied = S.yOccupied) ∧ S1.selectionFlag = some .success) ∨
      ((∃ x, S.Occ x) ∧ S1.xOccupied = S.xOccupied + 1 ∧ (v = .l2 → S1.yOccupied = S.yOccupied) ∧ S1.selectionFlag = some .success) ∨
      ((∃ x, S.Occ x) ∧ S1.xOccupied = S.xOccupied + 1 ∧ (v = .l2 → S1.yOccupied = S.yOccupied + 1) ∧
        S1.selectionFlag = some .currentSiteNotEmpty) := by
    cases v with
    | l0 => cases hv
    | sp => cases hv
    | l1 =>
      rcases l1_rule M hA.inv h with ⟨_, a, _, _, c, _⟩ | ⟨_, x, _, _, ⟨_, a, _, c, _⟩ | ⟨o, _, a, _, c, _⟩ | ⟨o, _, a, _, c, _⟩⟩
      · exact Or.inl ⟨c, fun h => (by cases h), a⟩
      · exact Or.inr (Or.inl ⟨c, fun h => (by cases h), a⟩)
      · exact Or.inr (Or.inr (Or.inl ⟨⟨x, o⟩, c, fun h => (by cases h), a⟩))
      · exact Or.inr (Or.inr (Or.inr ⟨⟨x, o⟩, c, fun h => (by cases h), a⟩))
    | l2 =>
      rcases l2_rule M hA.inv h with ⟨_, a, _, _, c, e⟩ | ⟨_, x, _, _, ⟨_, a, _, c, e⟩ | ⟨o, _, a, _, c, e⟩ | ⟨o, _, _, a, _, c, e⟩ | ⟨o, _, _, a, _, c, e⟩⟩
      · exact Or.inl ⟨c, fun _ => e, a⟩
      · exact Or.inr (Or.inl ⟨c, fun _ => e, a⟩)
      · exact Or.inr (Or.inr (Or.inl ⟨⟨x, o⟩, c, fun _ => e, a⟩))
      · exact Or.inr (Or.inr (Or.inl ⟨⟨x, o⟩, c, fun _ => e, a⟩))
      · exact Or.inr (Or.inr (Or.inr ⟨⟨x, o⟩, c, fun _ => e, a⟩))
  have hcount : (S1.selectionFlag = some .success ∧ b1 = true ∧ S1.occupiedCount = S.occupiedCount + 1) ∨
      (S1.selectionFlag ≠ some .success ∧ S1.occupiedCount = S.occupiedCount ∧ b1 = decide (S1.selectionFlag = some .currentSiteNotEmpty)) := by
    rcases placeOneSite_occ M hA.inv h with ⟨a, c, _, _, _, _, _, e⟩ | ⟨a, _, c, e⟩
    · exact Or.inl ⟨a, c, e⟩
    · exact Or.inr ⟨a, c, e⟩
  have hocc : (∃ x, S.Occ x) → S.occupiedCount ≠ 0 := fun ⟨x, hx⟩ h0 => hno h0 x hx
  unfold Tally at T ⊢
  rcases key with ⟨a, c, e⟩ | ⟨a, c, e⟩ | ⟨o, a, c, e⟩ | ⟨o, a, c, e⟩
  all_goals
    rw [e] at hcount
    simp only [reduceCtorEq, ne_eq, not_true_eq_false, not_false_eq_true, false_and, true_and, or_false, false_or, decide_true,
      decide_false, Option.some.injEq] at hcount
  · obtain ⟨k1, rfl⟩ := hcount
    obtain ⟨k2, k3, _⟩ := hf rfl
    rw [a, k1, k3]; rw [k2] at T
    rcases T with ⟨t1, t2, t3, t4⟩ | ⟨t1, t2, t3⟩
    · exact Or.inl ⟨t1, t2, t3, fun h => by rw [c h]; exact t4 h⟩
    · exact Or.inr ⟨t1, t2, fun h => by rw [c h]; exact t3 h⟩
  · obtain ⟨rfl, k1⟩ := hcount
    obtain ⟨k2, k3⟩ := ht rfl
    rw [a, k1]
    rcases T with ⟨t1, t2, t3, t4⟩ | ⟨t1, t2, t3⟩
    · refine Or.inr ⟨by omega, by push_cast; omega, fun h => ?_⟩
      have := c h; have := t4 h; push_cast; omega
    · refine Or.inr ⟨by omega, by push_cast; omega, fun h => ?_⟩
      have := c h; have := t3 h; push_cast; omega
  · obtain ⟨rfl, k1⟩ := hcount
    obtain ⟨k2, k3⟩ := ht rfl
    have := hocc o
    rw [a, k1]
    rcases T with ⟨t1, t2, t3, t4⟩ | ⟨t1, t2, t3⟩
    · omega
    · refine Or.inr ⟨by push_cast; omega, by push_cast; omega, fun h => ?_⟩
      have := c h; have := t3 h; push_cast; omega
  · obtain ⟨k1, rfl⟩ := hcount
    obtain ⟨k2, k3⟩ := ht rfl
    have := hocc o
    rw [a, k1]
    rcases T with ⟨t1, t2, t3, t4⟩ | ⟨t1, t2, t3⟩
    · omega
    · refine Or.inr ⟨by push_cast; omega, by push_cast; omega, fun h => ?_⟩
      have := c h; have := t3 h; push_cast; omega

theorem Tally.detect {w : Bool} (H : Live env v L S) (T : Tally v L S) (h : S.detectWrapping = .ok (S', w)) : Tally v L S' := by
  obtain ⟨A, M, hA⟩ := H.sim
  obtain ⟨K, _, hc⟩ := detectWrapping_keep M hA.inv h
  exact T.congr (H.detect h).2 hc K.xOccupied K.yOccupied

theorem Tally.record (H : Live env v L S) (T : Tally v L S) (h : S.record env = .ok S') : Tally v L S' := by
  have hb := (H.record h).2
  obtain ⟨p, _, rfl⟩ := record_ok h
  exact T.congr hb rfl rfl rfl

theorem Tally.start (hv : v.plain = false) (hb : S.budget L v = initBudget L v) (h1 : S.occupiedCount = 0) (h2 : S.xOccupied = 0)
    (h3 : S.yOccupied = 0) : Tally v L S := by
  refine Or.inl ⟨?_, h1, h2, fun _ => h3⟩
  cases v with
  | l0 => cases hv
  | sp => cases hv
  | l1 => rw [hb]; simp [initBudget]
  | l2 => rw [hb]; simp [initBudget]

theorem DefReach.tally (h : DefReach env v L S) (hv : v.plain = false) : Tally v L S := by
  have ns : v ≠ .sp := by rintro rfl; cases hv
  let Q : Perc α → Prop := fun S => Live env v L S ∧ Tally v L S
  have qp : ∀ {S S' : Perc α} {d : Draw} {b : Bool}, Q S → S.placeOneSite env v d = .ok (S', b) → Q S' :=
    fun q h => ⟨q.1.place_ok h, q.2.place q.1 hv h⟩
  have qd : ∀ {S S' : Perc α} {w : Bool}, Q S → S.detectWrapping = .ok (S', w) → Q S' := fun q h => ⟨(q.1.detect h).1, q.2.detect q.1 h⟩
  have qr : ∀ {S S' : Perc α}, Q S → S.record env = .ok S' → Q S' := fun q h => ⟨(q.1.record h).1, q.2.record q.1 h⟩
  have qf : ∀ {S : Perc α}, Q S → Q { S with firstRun := false } := fun {S} q =>
    ⟨(q.1.data false S.occProbList S.entropyList S.orderWrapList S.orderLargestList S.shortestP).1,
      q.2.congr (q.1.data false S.occProbList S.entropyList S.orderWrapList S.orderLargestList S.shortestP).2 rfl rfl rfl⟩
  induction h with
  | new h =>
    have hl := new_live (v := v) h
    obtain ⟨_, rev, rfl, _⟩ := new_inv h
    exact Tally.start hv hl.2 rfl rfl rfl
  | @step S S' op hop D h ih =>
    have H := D.live
    cases op with
    | place d =>
      simp only [SqPerc.step] at h
      cases hp : S.placeOneSite env v d with
      | error e => rw [hp] at h; cases h
      | ok r => rw [hp] at h; rw [← Except.ok.inj h]; exact ih.place (b := r.2) H hv hp
    | detect =>
      simp only [SqPerc.step] at h
      cases hp : S.detectWrapping with
      | error e => rw [hp] at h; cases h
      | ok r => rw [hp] at h; rw [← Except.ok.inj h]; exact ih.detect (w := r.2) H hp
    | reset draws =>
      obtain ⟨S1, h1, _, hb, _, _, hc, _⟩ := H.reset draws
      replace h : S.reset env v draws = .ok S' := h
      obtain ⟨c1, c2, _⟩ := reset_counters D.reach h
      rw [h1] at h
      obtain rfl := Except.ok.inj h
      exact Tally.start hv hb hc c1 c2
    | runOnce fuel ds =>
      replace h : S.runOnceV env v fuel ds = .ok S' := h
      have h : S.runOnce env v fuel ds = .ok S' := by
        cases v with
        | sp => exact absurd rfl ns
        | l0 => exact h
        | l1 => exact h
        | l2 => exact h
      simp only [Perc.runOnce] at h
      cases hr : Perc.runLoop env v fuel ds S with
      | error e => rw [hr] at h; cases h
      | ok S1 =>
        rw [hr] at h
        rw [← Except.ok.inj h]
        exact (qf (runLoop_ind Q qp qd qr fuel ⟨H, ih⟩ hr)).2
    | testRunOnce fuel ds =>
      simp only [SqPerc.step, Perc.testRunOnce] at h
      cases hr : Perc.testRunLoop env v fuel ds S with
      | error e => rw [hr] at h; cases h
      | ok S1 =>
        rw [hr] at h
        rw [← Except.ok.inj h]
        exact (qf (testRunLoop_ind Q qp qd qr fuel ⟨H, ih⟩ hr)).2
    | shuffle _ => cases hop
    | setIds _ _ _ => cases hop
    | setIndices _ _ _ => cases hop
    | swapIds _ _ => cases hop
  | @caught S e op hop D h _ ih =>
    refine (stepRaised_ind Q qp ?_ qd qr ?_ ⟨D.live, ih⟩ h).2
    · intro S d e q he
      obtain ⟨_, _, h1, _⟩ := q.1.place d
      rw [he] at h1; cases h1
    · rintro S i j e rfl
      cases hop

/-- After `run_once` nothing is left to be placed. -/
theorem Live.runLoop_budget (fuel : Nat) : ∀ {ds : Nat → Draw} {S S' : Perc α}, Live env v L S → Perc.runLoop env v fuel ds S = .ok S' →
    S'.budget L v = 0 := by
  induction fuel with
  | zero => intro ds S S' _ h; cases h
  | succ fuel ih =>
    intro ds S S' H h
    simp only [Perc.runLoop] at h
    obtain ⟨S1, b, p1, H1, _, hf⟩ := H.place (ds 0)
    rw [p1] at h
    cases b with
    | false =>
      replace h : (Except.ok S1 : Py (Perc α)) = _ := h
      rw [← Except.ok.inj h]; exact (hf rfl).2.1
    | true =>
      replace h : (if S1.selectionFlag = some .success then _ else _) = _ := h
      split at h
      · cases h2 : S1.detectWrapping with
        | error e => rw [h2] at h; cases h
        | ok res =>
          obtain ⟨S2, w⟩ := res
          rw [h2] at h
          replace h : (S2.record env >>= _) = _ := h
          cases h3 : S2.record env with
          | error e => rw [h3] at h; cases h
          | ok S3 => rw [h3] at h; exact ih ((H1.detect h2).1.record h3).1 h
      · exact ih H1 h

end SqPerc
