import Verif.Proof.Window
/-
Objects in the default mode: no call raises, and every run ends.
-/
namespace SqPerc

variable {α : Type} {L : Nat} {env : Env α} {v : Variant} {S S1 S' : Perc α} {A : Abs α} {d : Draw} {b : Bool}

/-! ### Induction over the loops -/

/-- A property kept by the parts of the loop of `run_once` is kept by the loop. -/
theorem runLoop_ind (Q : Perc α → Prop) (hp : ∀ {S S' : Perc α} {d : Draw} {b : Bool}, Q S → S.placeOneSite env v d = .ok (S', b) → Q S')
    (hd : ∀ {S S' : Perc α} {w : Bool}, Q S → S.detectWrapping = .ok (S', w) → Q S')
    (hr : ∀ {S S' : Perc α}, Q S → S.record env = .ok S' → Q S') (fuel : Nat) :
    ∀ {ds : Nat → Draw} {S S' : Perc α}, Q S → Perc.runLoop env v fuel ds S = .ok S' → Q S' := by
  induction fuel with
  | zero => intro ds S S' _ h; cases h
  | succ fuel ih =>
    intro ds S S' q h
    simp only [Perc.runLoop] at h
    cases h1 : S.placeOneSite env v (ds 0) with
    | error e => rw [h1] at h; cases h
    | ok res =>
      obtain ⟨S1, more⟩ := res
      rw [h1] at h
      have q1 := hp q h1
      cases more with
      | false =>
        replace h : (Except.ok S1 : Py (Perc α)) = _ := h
        rw [← Except.ok.inj h]; exact q1
      | true =>
        replace h : (if S1.selectionFlag = some .success then _ else _) = _ := h
        split at h
        · cases h2 : S1.detectWrapping with
          | error e => rw [h2] at h; cases h
          | ok res =>
            obtain ⟨S2, w⟩ := res
            rw [h2] at h
            replace h : (S2.record env >>= _) = _ := h
            cases h3 : S2.record env with
            | error e => rw [h3] at h; cases h
            | ok S3 => rw [h3] at h; exact ih (hr (hd q1 h2) h3) h
        · exact ih q1 h

theorem testRunLoop_ind (Q : Perc α → Prop) (hp : ∀ {S S' : Perc α} {d : Draw} {b : Bool}, Q S → S.placeOneSite env v d = .ok (S', b) → Q S')
    (hd : ∀ {S S' : Perc α} {w : Bool}, Q S → S.detectWrapping = .ok (S', w) → Q S')
    (hr : ∀ {S S' : Perc α}, Q S → S.record env = .ok S' → Q S') (fuel : Nat) :
    ∀ {ds : Nat → Draw} {S S' : Perc α}, Q S → Perc.testRunLoop env v fuel ds S = .ok S' → Q S' := by
  induction fuel with
  | zero => intro ds S S' _ h; cases h
  | succ fuel ih =>
    intro ds S S' q h
    simp only [Perc.testRunLoop] at h
    cases h1 : S.placeOneSite env v (ds 0) with
    | error e => rw [h1] at h; cases h
    | ok res =>
      obtain ⟨S1, more⟩ := res
      rw [h1] at h
      have q1 := hp q h1
      cases more with
      | false =>
        replace h : (Except.ok S1 : Py (Perc α)) = _ := h
        rw [← Except.ok.inj h]; exact q1
      | true =>
        replace h : (if S1.selectionFlag = some .success then _ else _) = _ := h
        split at h
        · cases h2 : S1.detectWrapping with
          | error e => rw [h2] at h; cases h
          | ok res =>
            obtain ⟨S2, w⟩ := res
            rw [h2] at h
            have q2 := hd q1 h2
            cases w with
            | true =>
              replace h : (pyAssert (decide (S2.pcOccupied > S2.getSiteCountPc)) >>= fun _ => Except.ok S2) = _ := h
              cases h3 : pyAssert (decide (S2.pcOccupied > S2.getSiteCountPc)) with
              | error e => rw [h3] at h; cases h
              | ok u => rw [h3] at h; rw [← Except.ok.inj h]; exact q2
            | false =>
              replace h : (S2.record env >>= _) = _ := h
              cases h3 : S2.record env with
              | error e => rw [h3] at h; cases h
              | ok S3 => rw [h3] at h; exact ih (hr q2 h3) h
        · exact ih q1 h

theorem spLoop_ind (Q : Perc α → Prop) (hp : ∀ {S S' : Perc α} {d : Draw} {b : Bool}, Q S → S.placeOneSite env .sp d = .ok (S', b) → Q S')
    (hd : ∀ {S S' : Perc α} {w : Bool}, Q S → S.detectWrapping = .ok (S', w) → Q S')
    (hr : ∀ {S : Perc α} {p : α}, Q S → Q { S with shortestP := p }) (fuel : Nat) :
    ∀ {S S' : Perc α} {b : Bool}, Q S → Perc.spLoop env fuel S = .ok (S', b) → Q S' := by
  induction fuel with
  | zero => intro S S' b _ h; cases h
  | succ fuel ih =>
    intro S S' b q h
    simp only [Perc.spLoop] at h
    cases h1 : S.placeOneSite env .sp ⟨0, 0⟩ with
    | error e => rw [h1] at h; cases h
    | ok res =>
      obtain ⟨S1, more⟩ := res
      rw [h1] at h
      have q1 := hp q h1
      cases more with
      | false =>
        replace h : (Except.ok (S1, false) : Py (Perc α × Bool)) = _ := h
        rw [← (Prod.mk.inj (Except.ok.inj h)).1]; exact q1
      | true =>
        replace h : (if S1.selectionFlag = some .success then _ else _) = _ := h
        split at h
        · cases h2 : S1.detectWrapping with
          | error e => rw [h2] at h; cases h
          | ok res =>
            obtain ⟨S2, w⟩ := res
            rw [h2] at h
            have q2 := hd q1 h2
            cases w with
            | true =>
              replace h : (match S2.selected with
                | none => .error .typeError
                | some k => (S2.lat.getSite k >>= fun st =>
                    S2.scanRowCol st.index.c1.toNat st.index.c2.toNat >>= fun fs =>
                    if (fs.1 || fs.2) = true then pure ({ S2 with shortestP := S2.occupationProb env }, true)
                    else Perc.spLoop env fuel S2) : Py (Perc α × Bool)) = .ok (S', b) := h
              split at h
              · cases h
              · rename_i k hsel
                replace h : (S2.lat.getSite k >>= _) = _ := h
                cases hst : S2.lat.getSite k with
                | error e => rw [hst] at h; cases h
                | ok st =>
                  rw [hst] at h
                  replace h : (S2.scanRowCol st.index.c1.toNat st.index.c2.toNat >>= _) = _ := h
                  cases hsc : S2.scanRowCol st.index.c1.toNat st.index.c2.toNat with
                  | error e => rw [hsc] at h; cases h
                  | ok fs =>
                    rw [hsc] at h
                    replace h : (if (fs.1 || fs.2) = true then _ else _) = _ := h
                    split at h
                    · rw [← (Prod.mk.inj (Except.ok.inj h)).1]; exact hr q2
                    · exact ih q2 h
            | false => exact ih q2 h
        · exact ih q1 h

/-! ### Default mode -/

/-- The selection part of the default-mode invariant. -/
def SelInv (L : Nat) (S : Perc α) : Variant → Prop
  | .l0 | .sp => S.siteIds.Nodup ∧ L0Ready L S S.siteIds S.currentIdx
  | .l1 => Window L S S.cnt1
  | .l2 => Window L S S.cnt2 ∧ ∀ x < L * L, 0 ≤ S.cnt1 x

/-- Invariant of objects in the default mode. -/
structure Live (env : Env α) (v : Variant) (L : Nat) (S : Perc α) : Prop where
  sim : ∃ A, Sim env L S A ∧ AReach env L A
  rev : S.revIds.length = L * L
  len : S.siteIds.length = L * L
  lt : ∀ x ∈ S.siteIds, x < L * L
  maxIter : S.maxIter = L * L
  custom : S.modeCustom = false
  doSh : S.doShuffle = true
  sel : SelInv L S v

/-- Number of further calls of `place_one_site` that return True. -/
def Perc.budget (L : Nat) (S : Perc α) : Variant → Int
  | .l0 | .sp => L * L - S.currentIdx
  | .l1 => S.left L S.cnt1
  | .l2 => S.left L S.cnt2

theorem Window.budget_nil {n : Nat → Int} (W : Window L S n) (M : Sim env L S A) (hA : AReach env L A) (h : L * L ≤ S.currentIdx) :
    S.left L n = 0 := by
  have hocc := W.empty h
  have hc : S.occupiedCount = L * L := by
    rw [M.count, hA.count, occCount_full]
    intro s hs
    exact (M.occ_iff s).1 (hocc s hs)
  unfold Perc.left Perc.pool'
  rw [List.drop_eq_nil_of_le (by rw [W.len]; exact h), hc]
  simp

/-- Changes of fields the invariant does not mention. -/
theorem Live.aux (H : Live env v L S) (h0 : ∀ A, Sim env L S A → Sim env L S' A) (h1 : S'.siteIds = S.siteIds) (h2 : S'.revIds = S.revIds)
    (h3 : S'.currentIdx = S.currentIdx) (h4 : S'.maxIter = S.maxIter) (h5 : S'.modeCustom = S.modeCustom) (h6 : S'.doShuffle = S.doShuffle)
    (h7 : S'.lat = S.lat) (h8 : S'.occupiedCount = S.occupiedCount) : Live env v L S' ∧ S'.budget L v = S.budget L v := by
  have hocc : ∀ s, S'.Occ s ↔ S.Occ s := fun s => by unfold Perc.Occ; rw [h7]
  have hc1 : S'.cnt1 = S.cnt1 := funext fun x => by unfold Perc.cnt1; rw [h7]
  have hc2 : S'.cnt2 = S.cnt2 := funext fun x => by unfold Perc.cnt2; rw [h7]
  obtain ⟨A, M, hA⟩ := H.sim
  have hsel := H.sel
  constructor
  · refine ⟨⟨A, h0 A M, hA⟩, by rw [h2]; exact H.rev, by rw [h1]; exact H.len, by rw [h1]; exact H.lt, h4.trans H.maxIter,
      h5.trans H.custom, h6.trans H.doSh, ?_⟩
    cases v with
    | l0 => refine ⟨by rw [h1]; exact hsel.1, ?_⟩; rw [h1, h3]; exact hsel.2.congr h1 h4 h3 hocc
    | sp => refine ⟨by rw [h1]; exact hsel.1, ?_⟩; rw [h1, h3]; exact hsel.2.congr h1 h4 h3 hocc
    | l1 => exact Window.congr hsel h1 h3 (fun s => (hocc s).2) (fun x => by rw [hc1]) (by rw [h8]; exact Window.sum hsel)
    | l2 => exact ⟨hsel.1.congr h1 h3 (fun s => (hocc s).2) (fun x => by rw [hc2]) (by rw [h8]; exact hsel.1.sum), by rw [hc1]; exact hsel.2⟩
  · cases v <;> simp only [Perc.budget, Perc.left, Perc.pool', h1, h3, h8, hc1, hc2]

theorem Live.record (H : Live env v L S) (h : S.record env = .ok S') : Live env v L S' ∧ S'.budget L v = S.budget L v := by
  refine H.aux (fun A M => record_sim M h) ?_ ?_ ?_ ?_ ?_ ?_ ?_ ?_ <;>
    (obtain ⟨p, _, rfl⟩ := record_ok h; rfl)

theorem Live.detect {w : Bool} (H : Live env v L S) (h : S.detectWrapping = .ok (S', w)) :
    Live env v L S' ∧ S'.budget L v = S.budget L v := by
  obtain ⟨A, M, hA⟩ := H.sim
  obtain ⟨a, _, _, A', hst, M', _⟩ := detectWrapping_steps M hA.inv h
  have hlat : S'.lat = S.lat ∧ S'.revIds = S.revIds := by
    rcases detectWrapping_sim M hA.inv h with ⟨_, rfl, _⟩ | ⟨_, k, _, ⟨_, rfl, _⟩ | ⟨_, _, _, rfl⟩⟩ <;> exact ⟨rfl, rfl⟩
  obtain ⟨K, _, hc⟩ := detectWrapping_keep M hA.inv h
  have hocc : ∀ s, S'.Occ s ↔ S.Occ s := fun s => by unfold Perc.Occ; rw [hlat.1]
  have hc1 : S'.cnt1 = S.cnt1 := funext fun x => (K.cnt x).1
  have hc2 : S'.cnt2 = S.cnt2 := funext fun x => (K.cnt x).2
  have h1 := K.siteIds
  have h3 := K.currentIdx
  have hsel := H.sel
  constructor
  · refine ⟨⟨A', M', hA.steps hst⟩, by rw [hlat.2]; exact H.rev, by rw [h1]; exact H.len, by rw [h1]; exact H.lt,
      a.maxIter.trans H.maxIter, a.custom.trans H.custom, a.doSh.trans H.doSh, ?_⟩
    cases v with
    | l0 => refine ⟨by rw [h1]; exact hsel.1, ?_⟩; rw [h1, h3]; exact hsel.2.congr h1 a.maxIter h3 hocc
    | sp => refine ⟨by rw [h1]; exact hsel.1, ?_⟩; rw [h1, h3]; exact hsel.2.congr h1 a.maxIter h3 hocc
    | l1 => exact Window.congr hsel h1 h3 (fun s => (hocc s).2) (fun x => by rw [hc1]) (by rw [hc]; exact Window.sum hsel)
    | l2 => exact ⟨hsel.1.congr h1 h3 (fun s => (hocc s).2) (fun x => by rw [hc2]) (by rw [hc]; exact hsel.1.sum), by rw [hc1]; exact hsel.2⟩
  · cases v <;> simp only [Perc.budget, Perc.left, Perc.pool', h1, h3, hc, hc1, hc2]

theorem Live.nonneg (H : Live env v L S) : 0 ≤ S.budget L v := by
  have hsel := H.sel
  cases v with
  | l0 =>
    have h1 := hsel.2.le
    rw [H.len] at h1
    have : (S.currentIdx : Int) ≤ L * L := by exact_mod_cast h1
    show (0 : Int) ≤ L * L - S.currentIdx; omega
  | sp =>
    have h1 := hsel.2.le
    rw [H.len] at h1
    have : (S.currentIdx : Int) ≤ L * L := by exact_mod_cast h1
    show (0 : Int) ≤ L * L - S.currentIdx; omega
  | l1 => exact Window.left_nonneg hsel
  | l2 => exact Window.left_nonneg hsel.1

/-- The plain classes: the list is exhausted only when every site is occupied. -/
theorem full_of_perm {ids : List Nat} (hn : ids.Nodup) (hl : ids.length = L * L) (hlt : ∀ x ∈ ids, x < L * L) {s : Nat} (hs : s < L * L) : s ∈ ids := by
  have hsub : ids ⊆ List.range (L * L) := fun x hx => List.mem_range.2 (hlt x hx)
  have hp : ids.Perm (List.range (L * L)) := (List.subperm_of_subset hn hsub).perm_of_length_le (by simp [hl])
  exact hp.mem_iff.2 (List.mem_range.2 hs)

theorem perm_range {ids : List Nat} (hn : ids.Nodup) (hl : ids.length = L * L) (hlt : ∀ x ∈ ids, x < L * L) : ids.Perm (List.range (L * L)) :=
  (List.subperm_of_subset hn (fun x hx => List.mem_range.2 (hlt x hx))).perm_of_length_le (by simp [hl])

/-- `place_one_site` in the default mode: never raises, returns True exactly while the budget is positive, and reduces it by one. -/
theorem Live.place (H : Live env v L S) (d : Draw) : ∃ S' b, S.placeOneSite env v d = .ok (S', b) ∧ Live env v L S' ∧
    (b = true → 0 < S.budget L v ∧ S'.budget L v + 1 = S.budget L v) ∧
    (b = false → S.budget L v = 0 ∧ S'.budget L v = 0 ∧ ∀ s < L * L, S.Occ s) := by
  obtain ⟨A, M, hA⟩ := H.sim
  have I := hA.inv
  -- everything but the selection part
  have mk : ∀ {S' : Perc α} {b : Bool}, S.placeOneSite env v d = .ok (S', b) → S'.siteIds.length = L * L →
      (∀ x ∈ S'.siteIds, x < L * L) → SelInv L S' v → Live env v L S' := by
    intro S' b h h1 h2 h3
    have a := (placeOneSite_sim M I h).1
    obtain ⟨A', hst, M'⟩ := placeOneSite_steps M I h
    exact ⟨⟨A', M', hA.steps hst⟩, by rw [a.rev]; exact H.rev, h1, h2, a.maxIter.trans H.maxIter, a.custom.trans H.custom,
      a.doSh.trans H.doSh, h3⟩
  have hsel := H.sel
  have plain : v.plain = true → S.siteIds.Nodup ∧ L0Ready L S S.siteIds S.currentIdx →
      ∃ S' b, S.placeOneSite env v d = .ok (S', b) ∧ (S'.siteIds.Nodup ∧ L0Ready L S' S'.siteIds S'.currentIdx) ∧
        S'.siteIds = S.siteIds ∧
        (b = true → (0 : Int) < L * L - S.currentIdx ∧ (L * L - S'.currentIdx : Int) + 1 = L * L - S.currentIdx) ∧
        (b = false → (L * L - S.currentIdx : Int) = 0 ∧ (L * L - S'.currentIdx : Int) = 0 ∧ ∀ s < L * L, S.Occ s) := by
    intro hv hsel
    by_cases hc : S.currentIdx < S.siteIds.length
    · have hget := List.getElem?_eq_getElem hc
      have hnot : S.siteIds[S.currentIdx] ∉ S.siteIds.take S.currentIdx := by
        intro hm
        obtain ⟨j, hj, e⟩ := List.mem_take_iff_getElem.1 hm
        have := (List.Nodup.getElem_inj_iff hsel.1).1 e
        omega
      obtain ⟨S', p1, _, _, R⟩ := hsel.2.place M I hv hget hnot d
      have e1 := R.siteIds
      have e2 := R.currentIdx
      refine ⟨S', true, p1, ⟨by rw [e1]; exact hsel.1, by rw [e1, e2]; exact R⟩, e1, fun _ => ?_, fun h => by cases h⟩
      rw [H.len] at hc
      have : (S.currentIdx : Int) < L * L := by exact_mod_cast hc
      rw [e2]; push_cast; omega
    · have hce : S.currentIdx = S.siteIds.length := Nat.le_antisymm hsel.2.le (by omega)
      have R0 : L0Ready L S S.siteIds S.siteIds.length := hce ▸ hsel.2
      obtain ⟨S', p1, rfl, R⟩ := R0.done (env := env) hv d
      refine ⟨_, false, p1, ⟨hsel.1, by rw [← hce] at R; exact R⟩, rfl, fun h => (by cases h), fun _ => ?_⟩
      have hci : (S.currentIdx : Int) = L * L := by rw [hce, H.len]; push_cast; rfl
      refine ⟨by omega, ?_, ?_⟩
      · show (L * L - S.currentIdx : Int) = 0; omega
      · intro s hs
        rw [R0.occ, List.take_length]
        exact full_of_perm hsel.1 H.len H.lt hs
  cases v with
  | l0 =>
    obtain ⟨S', b, p1, p2, e, p3, p4⟩ := plain rfl hsel
    exact ⟨S', b, p1, mk p1 (by rw [e]; exact H.len) (by rw [e]; exact H.lt) p2, p3, p4⟩
  | sp =>
    obtain ⟨S', b, p1, p2, e, p3, p4⟩ := plain rfl hsel
    exact ⟨S', b, p1, mk p1 (by rw [e]; exact H.len) (by rw [e]; exact H.lt) p2, p3, p4⟩
  | l1 =>
    obtain ⟨S', b, p1, W, p3, p4⟩ := Window.placeL1 hsel M hA d
    refine ⟨S', b, p1, mk p1 W.len W.lt W, p3, fun h => ?_⟩
    obtain ⟨c1, c2, c3⟩ := p4 h
    have e0 := Window.budget_nil hsel M hA c1
    exact ⟨e0, c3.trans e0, Window.empty hsel c1⟩
  | l2 =>
    obtain ⟨S', b, p1, W, hn, p3, p4⟩ := Window.placeL2 hsel.1 hsel.2 M hA d
    refine ⟨S', b, p1, mk p1 W.len W.lt ⟨W, hn⟩, p3, fun h => ?_⟩
    obtain ⟨c1, c2, c3⟩ := p4 h
    have e0 := Window.budget_nil hsel.1 M hA c1
    exact ⟨e0, c3.trans e0, Window.empty hsel.1 c1⟩

theorem Live.place_ok (H : Live env v L S) (h : S.placeOneSite env v d = .ok (S', b)) : Live env v L S' := by
  obtain ⟨S1, b1, h1, h2, _⟩ := H.place d
  rw [h1] at h
  obtain ⟨rfl, _⟩ := Prod.mk.inj (Except.ok.inj h)
  exact h2

/-- Initial budget. -/
def initBudget (L : Nat) : Variant → Int
  | .l0 | .sp => L * L
  | .l1 | .l2 => 5 * (L * L)

theorem sum_four (l : List Nat) (n : Nat → Int) (h : ∀ x ∈ l, n x = 4) : (l.map n).sum = 4 * l.length := by
  induction l with
  | nil => simp
  | cons a l ih =>
    rw [List.map_cons, List.sum_cons, ih (fun x hx => h x (by simp [hx])), h a (by simp), List.length_cons]
    push_cast; omega

/-- A state with empty lattice and the given site order is live, with the full budget. -/
theorem live_init {sel : Option Nat} (M : Sim env L S (Abs.init env L sel)) (hs : ∀ k, sel = some k → k < L * L) (h1 : S.revIds.length = L * L)
    (h2 : S.siteIds.Perm (List.range (L * L))) (h3 : S.maxIter = L * L) (h4 : S.modeCustom = false) (h5 : S.doShuffle = true)
    (h6 : S.currentIdx = 0) : Live env v L S ∧ S.budget L v = initBudget L v := by
  have hlen : S.siteIds.length = L * L := by rw [h2.length_eq]; simp
  have hlt : ∀ x ∈ S.siteIds, x < L * L := fun x hx => List.mem_range.1 (h2.mem_iff.1 hx)
  have hnd : S.siteIds.Nodup := h2.nodup_iff.2 List.nodup_range
  have hcnt : S.occupiedCount = 0 := M.count
  have hno : ∀ s, ¬ S.Occ s := by
    intro s
    rw [M.occ_iff]
    rintro ⟨_, h⟩
    exact absurd h (show ¬ (0 : Int) ≤ -1 by decide)
  have hpool : S.pool' = S.siteIds := by unfold Perc.pool'; rw [h6]; rfl
  have c1 : ∀ x ∈ S.siteIds, S.cnt1 x = 4 := fun x hx => by rw [cnt1_mk M.lat (hlt x hx)]; rfl
  have c2 : ∀ x ∈ S.siteIds, S.cnt2 x = 4 := fun x hx => by rw [cnt2_mk M.lat (hlt x hx)]; rfl
  have win : ∀ n : Nat → Int, (∀ x ∈ S.siteIds, n x = 4) → Window L S n ∧ S.left L n = 5 * (L * L) := by
    intro n hn
    constructor
    · refine ⟨by omega, hlen, hlt, by rw [hpool]; exact hnd, ?_, ?_, by omega⟩
      · intro s hs _
        rw [hpool]; exact h2.mem_iff.2 (List.mem_range.2 hs)
      · intro x hx
        rw [hpool] at hx
        rw [hn x hx]; decide
    · unfold Perc.left
      rw [hpool, sum_four _ _ hn, hlen, hcnt]; push_cast; omega
  have rdy : L0Ready L S S.siteIds S.currentIdx :=
    ⟨rfl, h3.trans hlen.symm, rfl, by omega, hlt, fun s => by rw [h6]; simp [hno s]⟩
  constructor
  · refine ⟨⟨_, M, .init hs⟩, h1, hlen, hlt, h3, h4, h5, ?_⟩
    cases v with
    | l0 => exact ⟨hnd, rdy⟩
    | sp => exact ⟨hnd, rdy⟩
    | l1 => exact (win _ c1).1
    | l2 => exact ⟨(win _ c2).1, fun x hx => by rw [cnt1_mk M.lat hx]; exact show (0 : Int) ≤ 4 by decide⟩
  · cases v with
    | l0 => show (L * L - S.currentIdx : Int) = L * L; rw [h6]; simp
    | sp => show (L * L - S.currentIdx : Int) = L * L; rw [h6]; simp
    | l1 => exact (win _ c1).2
    | l2 => exact (win _ c2).2

/-- The object under construction right before the site order is shuffled. -/
def freshPerc (env : Env α) (L : Nat) : Perc α :=
  { lat := mkLat L LV.init, pool := mkPool (2 * (L * L)) (PV.init (2 * (L * L))), pcBonds := none, pcSites := none
    siteIds := List.range (L * L), revIds := List.replicate (L * L) 0, currentIdx := 0, occupiedCount := 0
    pcOccupied := 0, selected := none, clusterCount := 2 * (L * L), largestSz := 0, largestId := -1
    maxEntropy := env.ar.log (env.ar.ofNat (2 * (L * L))), entropyValue := env.ar.log (env.ar.ofNat (2 * (L * L)))
    afterWrapping := false, wrappingId := -1, firstRun := true, occProbList := [], entropyList := [], orderWrapList := []
    orderLargestList := [], maxIter := L * L, modeCustom := false, doShuffle := true, selectionFlag := none
    xOccupied := 0, yOccupied := 0, seqRecord := [], shortestP := env.ar.ofNat 0 }

theorem new_eq (env : Env α) (L : Nat) (draws : Nat → Nat) :
    Perc.new env L draws = if L = 0 then .error .valueError else (freshPerc env L).shuffle draws := by
  simp only [Perc.new, Lattice.new_eq, idealLattice_eq]
  show (initClusters (mkLat L (LV.initStage 0)) >>= _) = _
  rw [initClusters_mk]
  show (if (mkLat L LV.init).bondCount = 0 then _ else _) = _
  have hp2 : L ^ 2 = L * L := Nat.pow_two L
  simp only [mkLat_length, mkLat_siteCount, mkLat_bondCount, hp2]
  by_cases h0 : L = 0
  · subst h0; rfl
  · rw [if_neg h0, if_neg (by have := Nat.mul_pos (Nat.pos_of_ne_zero h0) (Nat.pos_of_ne_zero h0); omega)]
    rfl

/-- Construction succeeds for `L ≥ 1`: every attribute is as listed in `freshPerc`, except the shuffled site order and its reverse. -/
theorem new_ok (env : Env α) (hL : 0 < L) (draws : Nat → Nat) : ∃ rev, Perc.new env L draws = .ok
    { freshPerc env L with siteIds := pyShuffle draws (List.range (L * L)), revIds := rev } ∧ rev.length = L * L ∧
      Inverse (pyShuffle draws (List.range (L * L))) rev := by
  rw [new_eq, if_neg (by omega)]
  obtain ⟨rev, e, e1, e2⟩ := shuffle_default (S := freshPerc env L) rfl
    (by intro k hk; show k < (List.replicate (L * L) 0).length; rw [List.length_replicate]; exact List.mem_range.1 hk) draws
  exact ⟨rev, e, e1.trans (by simp [freshPerc]), e2 List.nodup_range⟩

theorem new_inv {draws : Nat → Nat} (h : Perc.new env L draws = .ok S) : 0 < L ∧ ∃ rev,
    S = { freshPerc env L with siteIds := pyShuffle draws (List.range (L * L)), revIds := rev } ∧ rev.length = L * L ∧
      Inverse (pyShuffle draws (List.range (L * L))) rev := by
  have hL := (new_sim h).1
  obtain ⟨rev, e, e1, e2⟩ := new_ok env hL draws
  rw [e] at h
  exact ⟨hL, rev, (Except.ok.inj h).symm, e1, e2⟩

theorem new_live {draws : Nat → Nat} (h : Perc.new env L draws = .ok S) : Live env v L S ∧ S.budget L v = initBudget L v := by
  have M := (new_sim h).2.2
  obtain ⟨_, rev, rfl, e1, e2⟩ := new_inv h
  exact live_init M (fun k hk => by cases hk) e1 (pyShuffle_perm _ _) rfl rfl rfl rfl

/-- `reset` in the default mode. -/
theorem resetBase_default {V : LV} (hS : S.lat = mkLat L V) (hd : S.doShuffle = true) (hlt : ∀ k ∈ S.siteIds, k < S.revIds.length)
    (draws : Nat → Nat) : ∃ rev, S.resetBase draws = .ok { S with
      lat := mkLat L LV.init
      pool := mkPool (2 * (L * L)) (PV.init (2 * (L * L)))
      pcBonds := none, pcSites := none, siteIds := pyShuffle draws S.siteIds, revIds := rev
      currentIdx := 0, pcOccupied := 0, afterWrapping := false, wrappingId := -1
      largestSz := 0, largestId := -1, entropyValue := S.maxEntropy, occupiedCount := 0
      selectionFlag := none
      occProbList := if S.firstRun then [] else S.occProbList
      entropyList := [], orderWrapList := [], orderLargestList := [] } ∧ rev.length = S.revIds.length ∧
      (S.siteIds.Nodup → Inverse (pyShuffle draws S.siteIds) rev) := by
  simp only [Perc.resetBase, hS, reset_mk]
  generalize hS2 : ({ S with lat := mkLat L LV.init, pool := mkPool (2 * (L * L)) (PV.init (2 * (L * L))), pcBonds := none, pcSites := none } : Perc α) = S2
  obtain ⟨rev, e, e1, e2⟩ := shuffle_default (S := S2) (by rw [← hS2]; exact hd) (by rw [← hS2]; exact hlt) draws
  refine ⟨rev, ?_, by rw [e1, ← hS2], by rw [← hS2] at e2; exact e2⟩
  show (initClusters (mkLat L (LV.initStage 0)) >>= _) = _
  rw [initClusters_mk]
  show (Perc.shuffle { S with lat := mkLat L LV.init, pool := mkPool (2 * (L * L)) (PV.init (2 * (L * L))), pcBonds := none, pcSites := none } draws >>= _) = _
  rw [hS2, e]
  subst hS2
  rfl

end SqPerc
