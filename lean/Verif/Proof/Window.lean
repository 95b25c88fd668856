import Verif.Proof.Run
import Mathlib.Algebra.BigOperators.Group.List.Basic
/-
L1 and L2: the pool of candidates and the number of calls left.
-/
namespace SqPerc

variable {α : Type} {L : Nat} {env : Env α} {v : Variant} {S S1 S' : Perc α} {A : Abs α} {d : Draw} {b : Bool}

/-- Removing position `j` by overwriting it with the head and dropping the head. -/
theorem drop_perm (w : List Nat) (j x c : Nat) (hj : w[j]? = some x) (hc : w[0]? = some c) : w.Perm (x :: (w.set j c).tail) := by
  cases w with
  | nil => simp at hj
  | cons a rest =>
    simp only [List.getElem?_cons_zero, Option.some.injEq] at hc
    subst hc
    cases j with
    | zero =>
      simp only [List.getElem?_cons_zero, Option.some.injEq] at hj
      subst hj
      simp
    | succ j =>
      rw [List.getElem?_cons_succ] at hj
      have hl := (List.getElem?_eq_some_iff.1 hj).1
      have he := (List.getElem?_eq_some_iff.1 hj).2
      simp only [List.set_cons_succ, List.tail_cons]
      rw [List.perm_iff_count]
      intro y
      rw [List.count_cons, List.count_cons, List.count_set hl, he]
      have hp : 0 < rest.count x := by rw [← he]; exact List.count_pos_iff.2 (List.getElem_mem hl)
      by_cases h1 : x = y
      · subst h1
        simp; omega
      · simp [h1]

theorem sum_update {w : List Nat} {f f' : Nat → Int} {x : Nat} (hn : w.Nodup) (hx : x ∈ w) (h1 : ∀ y ∈ w, y ≠ x → f' y = f y) (h2 : f' x = f x - 1) :
    (w.map f').sum + 1 = (w.map f).sum := by
  induction w with
  | nil => simp at hx
  | cons a w ih =>
    rw [List.nodup_cons] at hn
    simp only [List.map_cons, List.sum_cons]
    by_cases ha : a = x
    · subst ha
      have : w.map f' = w.map f := List.map_congr_left fun y hy => h1 y (by simp [hy]) (by rintro rfl; exact hn.1 hy)
      rw [this, h2]; omega
    · have := ih hn.2 ((List.mem_cons.1 hx).resolve_left (fun h => ha h.symm)) (fun y hy => h1 y (by simp [hy]))
      rw [h1 a (by simp) ha]; omega

/-- The candidates still in the pool. -/
def Perc.pool' (S : Perc α) : List Nat := S.siteIds.drop S.currentIdx

/-- Invariant of the pool of candidates for the counter `n`. -/
structure Window (L : Nat) (S : Perc α) (n : Nat → Int) : Prop where
  cur : S.currentIdx ≤ L * L
  len : S.siteIds.length = L * L
  lt : ∀ x ∈ S.siteIds, x < L * L
  nd : S.pool'.Nodup
  un : ∀ s < L * L, ¬ S.Occ s → s ∈ S.pool'
  pos : ∀ x ∈ S.pool', 1 ≤ n x
  sum : S.occupiedCount ≤ L * L

/-- Calls of `place_one_site` left that return True. -/
def Perc.left (L : Nat) (S : Perc α) (n : Nat → Int) : Int := (S.pool'.map n).sum + (L * L - S.occupiedCount : Int)

theorem Window.congr {n n' : Nat → Int} (W : Window L S n) (h1 : S'.siteIds = S.siteIds) (h2 : S'.currentIdx = S.currentIdx)
    (h3 : ∀ s, S.Occ s → S'.Occ s) (h4 : ∀ x, n' x = n x) (h5 : S'.occupiedCount ≤ L * L) : Window L S' n' := by
  have hp : S'.pool' = S.pool' := by unfold Perc.pool'; rw [h1, h2]
  refine ⟨by rw [h2]; exact W.cur, by rw [h1]; exact W.len, by rw [h1]; exact W.lt, by rw [hp]; exact W.nd, ?_, ?_, h5⟩
  · intro s hs hu
    rw [hp]; exact W.un s hs (fun h => hu (h3 s h))
  · intro x hx
    rw [h4]; exact W.pos x (by rwa [hp] at hx)

theorem left_congr {n n' : Nat → Int} (h1 : S'.siteIds = S.siteIds) (h2 : S'.currentIdx = S.currentIdx) (h4 : ∀ x, n' x = n x)
    {m : Nat} (h5 : S'.occupiedCount = S.occupiedCount + m) : S'.left L n' + m = S.left L n := by
  have hp : S'.pool' = S.pool' := by unfold Perc.pool'; rw [h1, h2]
  have hn : n' = n := funext h4
  unfold Perc.left
  rw [hp, hn, h5]; push_cast; omega

theorem Window.left_nonneg {n : Nat → Int} (W : Window L S n) : 0 ≤ S.left L n := by
  have h : ∀ w : List Nat, (∀ x ∈ w, 1 ≤ n x) → 0 ≤ (w.map n).sum := by
    intro w hw
    induction w with
    | nil => simp
    | cons a w ih =>
      have := ih fun x hx => hw x (by simp [hx])
      have := hw a (by simp)
      simp only [List.map_cons, List.sum_cons]; omega
  have h1 := h _ W.pos
  have h2 := W.sum
  unfold Perc.left
  have : (S.occupiedCount : Int) ≤ L * L := by exact_mod_cast h2
  omega

theorem Window.empty {n : Nat → Int} (W : Window L S n) (h : L * L ≤ S.currentIdx) : ∀ s < L * L, S.Occ s := by
  intro s hs
  by_contra hu
  have := W.un s hs hu
  unfold Perc.pool' at this
  rw [List.drop_eq_nil_of_le (by rw [W.len]; exact h)] at this
  simp at this

theorem Window.pos_left {n : Nat → Int} (W : Window L S n) (h : S.currentIdx < L * L) : 0 < S.left L n := by
  have hp : S.pool' ≠ [] := by
    unfold Perc.pool'
    intro e
    have := List.drop_eq_nil_iff.1 e
    rw [W.len] at this; omega
  obtain ⟨a, w, e⟩ := List.exists_cons_of_ne_nil hp
  have h1 : ∀ w : List Nat, (∀ x ∈ w, 1 ≤ n x) → 0 ≤ (w.map n).sum := by
    intro w hw
    induction w with
    | nil => simp
    | cons a w ih =>
      have := ih fun x hx => hw x (by simp [hx])
      have := hw a (by simp)
      simp only [List.map_cons, List.sum_cons]; omega
  have h2 := h1 w (fun x hx => W.pos x (by rw [e]; simp [hx]))
  have h3 := W.pos a (by rw [e]; simp)
  have h4 : (S.occupiedCount : Int) ≤ L * L := by exact_mod_cast W.sum
  unfold Perc.left
  rw [e]
  simp only [List.map_cons, List.sum_cons]; omega

/-- A drawn candidate that is occupied and fails: its counter goes down, and it leaves the pool at zero. -/
theorem Window.fail {n n' : Nat → Int} {rnd x : Nat} (W : Window L S n) (hr : S.currentIdx ≤ rnd) (hx : S.siteIds[rnd]? = some x)
    (hc : S.currentIdx < L * L) (hocc : S.Occ x)
    (h1 : S'.siteIds = if dec (n x) = 0 then dropAt S rnd else S.siteIds)
    (h2 : S'.currentIdx = if dec (n x) = 0 then S.currentIdx + 1 else S.currentIdx)
    (h3 : ∀ s, S'.Occ s ↔ S.Occ s) (h4 : ∀ y, n' y = if y = x then dec (n x) else n y) (h5 : S'.occupiedCount = S.occupiedCount) :
    Window L S' n' ∧ S'.left L n' + 1 = S.left L n := by
  have hrl := (List.getElem?_eq_some_iff.1 hx).1
  have hw : S.pool'[rnd - S.currentIdx]? = some x := by
    unfold Perc.pool'
    rw [List.getElem?_drop, show S.currentIdx + (rnd - S.currentIdx) = rnd by omega]; exact hx
  have hxw : x ∈ S.pool' := List.mem_of_getElem? hw
  have hpx := W.pos x hxw
  have hdec : dec (n x) = n x - 1 := by unfold dec; rw [if_neg (by omega)]
  by_cases h0 : dec (n x) = 0
  · rw [if_pos h0] at h1 h2
    have hcl : S.currentIdx < S.siteIds.length := by rw [W.len]; exact hc
    have hcur : S.siteIds[S.currentIdx]? = some S.siteIds[S.currentIdx] := List.getElem?_eq_getElem hcl
    have hp' : S'.pool' = (S.pool'.set (rnd - S.currentIdx) S.siteIds[S.currentIdx]).tail := by
      unfold Perc.pool'
      rw [h1, h2]
      unfold dropAt
      rw [hcur, Option.getD_some, ← List.tail_drop, List.drop_set, if_neg (by omega)]
    have hperm : S.pool'.Perm (x :: S'.pool') := by
      rw [hp']
      apply drop_perm _ _ _ _ hw
      unfold Perc.pool'
      rw [List.getElem?_drop]; exact hcur
    have hnd := hperm.nodup_iff.1 W.nd
    rw [List.nodup_cons] at hnd
    constructor
    · refine ⟨by omega, ?_, ?_, hnd.2, ?_, ?_, by rw [h5]; exact W.sum⟩
      · rw [h1]; unfold dropAt; rw [List.length_set]; exact W.len
      · rw [h1]; unfold dropAt
        rw [hcur, Option.getD_some]
        intro y hy
        rcases List.mem_or_eq_of_mem_set hy with h | h
        · exact W.lt y h
        · rw [h]; exact W.lt _ (List.getElem_mem hcl)
      · intro s hs hu
        have hu' : ¬ S.Occ s := fun h => hu ((h3 s).2 h)
        rcases List.mem_cons.1 (hperm.mem_iff.1 (W.un s hs hu')) with h | h
        · rw [h] at hu'; exact absurd hocc hu'
        · exact h
      · intro y hy
        rw [h4, if_neg (by rintro rfl; exact hnd.1 hy)]
        exact W.pos y (hperm.mem_iff.2 (List.mem_cons_of_mem _ hy))
    · unfold Perc.left
      rw [h5, (hperm.map n).sum_eq]
      simp only [List.map_cons, List.sum_cons]
      have : S'.pool'.map n' = S'.pool'.map n := List.map_congr_left fun y hy => by
        rw [h4, if_neg (by rintro rfl; exact hnd.1 hy)]
      rw [this]; omega
  · rw [if_neg h0] at h1 h2
    have hp : S'.pool' = S.pool' := by unfold Perc.pool'; rw [h1, h2]
    constructor
    · refine ⟨by rw [h2]; exact W.cur, by rw [h1]; exact W.len, by rw [h1]; exact W.lt, by rw [hp]; exact W.nd, ?_, ?_, by rw [h5]; exact W.sum⟩
      · intro s hs hu
        rw [hp]; exact W.un s hs (fun h => hu ((h3 s).2 h))
      · intro y hy
        rw [hp] at hy
        rw [h4]
        split
        · omega
        · exact W.pos y hy
    · unfold Perc.left
      rw [hp, h5]
      have := sum_update (f := n) (f' := n') W.nd hxw (fun y _ hy => by rw [h4, if_neg hy]) (by rw [h4, if_pos rfl, hdec])
      omega

/-- A successful selection keeps the pool. -/
theorem Window.success {n n' : Nat → Int} (W : Window L S n) (h1 : S'.siteIds = S.siteIds) (h2 : S'.currentIdx = S.currentIdx)
    (h3 : ∀ s, S.Occ s → S'.Occ s) (h4 : ∀ x, n' x = n x) (h5 : S'.occupiedCount = S.occupiedCount + 1) (h6 : S'.occupiedCount ≤ L * L) :
    Window L S' n' ∧ S'.left L n' + 1 = S.left L n :=
  ⟨W.congr h1 h2 h3 h4 h6, left_congr (m := 1) h1 h2 h4 h5⟩

/-- The occupation counter never exceeds the number of sites. -/
theorem occupiedCount_le (M : Sim env L S A) (hA : AReach env L A) : S.occupiedCount ≤ L * L := by
  classical
  rw [M.count, hA.count]
  unfold occCount
  exact (Finset.card_filter_le _ _).trans (by simp)

theorem occ_of_sg (M : Sim env L S A) {s : Nat} (hs : s < L * L) (h : 0 ≤ A.V.sg s) : S.Occ s := (M.occ_iff s).2 ⟨hs, h⟩

/-- One L1 call in the default mode. -/
theorem Window.placeL1 (W : Window L S S.cnt1) (M : Sim env L S A) (hA : AReach env L A) (d : Draw) :
    ∃ S' b, S.placeOneSite env .l1 d = .ok (S', b) ∧ Window L S' S'.cnt1 ∧
      (b = true → 0 < S.left L S.cnt1 ∧ S'.left L S'.cnt1 + 1 = S.left L S.cnt1) ∧
      (b = false → L * L ≤ S.currentIdx ∧ S'.currentIdx = S.currentIdx ∧ S'.left L S'.cnt1 = S.left L S.cnt1) := by
  have I := hA.inv
  by_cases hc : S.currentIdx < L * L
  · have hcl : S.currentIdx < S.siteIds.length := by rw [W.len]; exact hc
    have hrl : S.currentIdx + d.a % (S.siteIds.length - S.currentIdx) < S.siteIds.length := by
      have := Nat.mod_lt d.a (show 0 < S.siteIds.length - S.currentIdx by omega); omega
    have hx : S.siteIds[S.currentIdx + d.a % (S.siteIds.length - S.currentIdx)]? = some S.siteIds[S.currentIdx + d.a % (S.siteIds.length - S.currentIdx)] :=
      List.getElem?_eq_getElem hrl
    generalize S.siteIds[S.currentIdx + d.a % (S.siteIds.length - S.currentIdx)] = x at hx
    have hxl : x < L * L := W.lt x (List.mem_of_getElem? hx)
    have hsel := selectL1_eq M.lat d hc hcl rfl hx hxl
    have hxw : x ∈ S.pool' := by
      apply List.mem_of_getElem? (i := d.a % (S.siteIds.length - S.currentIdx))
      unfold Perc.pool'
      rw [List.getElem?_drop]; exact hx
    have hn1 : ¬ A.V.n1 x < 0 := by
      have := W.pos x hxw
      rw [cnt1_mk M.lat hxl] at this; omega
    -- a successful selection of an unoccupied site
    have key : ∀ (S1 : Perc α) (k : Nat), S1.lat = S.lat → S1.siteIds = S.siteIds → S1.currentIdx = S.currentIdx →
        k < L * L → ¬ 0 ≤ A.V.sg k → S.selectL1 d = S1.finishSelect k →
        ∃ S' b, S.placeOneSite env .l1 d = .ok (S', b) ∧ Window L S' S'.cnt1 ∧
          (b = true → 0 < S.left L S.cnt1 ∧ S'.left L S'.cnt1 + 1 = S.left L S.cnt1) ∧
          (b = false → L * L ≤ S.currentIdx ∧ S'.currentIdx = S.currentIdx ∧ S'.left L S'.cnt1 = S.left L S.cnt1) := by
      intro S1 k e1 e2 e3 hk hu hs
      have hu' : A.V.sg k = -1 := by
        rcases I.core.sgr k hk with h | h
        · exact h
        · exact absurd h.1 hu
      rw [finishSelect_ok (V := A.V) (by rw [e1]; exact M.lat) hk hu'] at hs
      replace hs : S.selectSite .l1 d = _ := hs
      obtain ⟨S', p1, p2, K⟩ := placeOneSite_of_select M I hs
      refine ⟨S', true, p1, ?_⟩
      obtain ⟨A', hst, M'⟩ := placeOneSite_steps M I p1
      obtain ⟨_, _, k', _, _, _, hocc, hcnt⟩ := (placeOneSite_occ M I p1).resolve_right (fun h => h.1 p2)
      have hcc : ∀ x, S'.cnt1 x = S.cnt1 x := fun x => by
        rw [(K.cnt x).1]
        show (match S1.lat.getSite x with | .ok st => st.nn1 | .error _ => 0) = _
        rw [e1]; rfl
      obtain ⟨w1, w2⟩ := W.success (K.siteIds.trans e2) (K.currentIdx.trans e3) (fun s h => (hocc s).2 (Or.inl h)) hcc hcnt
        (occupiedCount_le M' (hA.steps hst))
      exact ⟨w1, fun _ => ⟨W.pos_left hc, w2⟩, fun h => by cases h⟩
    by_cases h0 : 0 ≤ A.V.sg x
    · rw [if_pos h0] at hsel
      by_cases h1 : 0 ≤ A.V.sg (nbr L x (dirOf d.b))
      · rw [if_pos h1, if_neg hn1] at hsel
        replace hsel : S.selectSite .l1 d = _ := hsel
        obtain ⟨S', p1, p2, K⟩ := placeOneSite_of_select M I hsel
        refine ⟨S', true, p1, ?_⟩
        obtain ⟨_, hocc, hcnt, _⟩ := (placeOneSite_occ M I p1).resolve_left (fun h => by rw [p2] at h; exact absurd h.1 (by simp))
        have hcc : ∀ y, S'.cnt1 y = if y = x then dec (S.cnt1 x) else S.cnt1 y := by
          intro y
          rw [(K.cnt y).1]
          by_cases hy : y < L * L
          · rw [cnt1_mk (V := { A.V with n1 := upd A.V.n1 x (dec (A.V.n1 x)) }) rfl hy, cnt1_mk M.lat hy, cnt1_mk M.lat hxl]; rfl
          · rw [if_neg (by rintro rfl; exact hy hxl)]
            unfold Perc.cnt1
            rw [M.lat, getSite_mk_error (by omega)]
            show (match (mkLat L { A.V with n1 := upd A.V.n1 x (dec (A.V.n1 x)) }).getSite y with | .ok st => st.nn1 | .error _ => 0) = _
            rw [getSite_mk_error (by omega)]
        have hd : dec (A.V.n1 x) = dec (S.cnt1 x) := by rw [cnt1_mk M.lat hxl]
        obtain ⟨w1, w2⟩ := W.fail (S' := S') (n' := S'.cnt1) (Nat.le_add_right _ _) hx hc (occ_of_sg M hxl h0)
          (by rw [K.siteIds, ← hd]; rfl) (by rw [K.currentIdx, ← hd]; rfl) hocc hcc hcnt
        exact ⟨w1, fun _ => ⟨W.pos_left hc, w2⟩, fun h => by cases h⟩
      · rw [if_neg h1] at hsel
        exact key _ _ (by exact rfl) (by exact rfl) (by exact rfl) (nbr_lt hxl _) h1 hsel
    · rw [if_neg h0] at hsel
      exact key _ _ (by exact rfl) (by exact rfl) (by exact rfl) hxl h0 hsel
  · have hs : S.selectSite .l1 d = .ok (S, .emptySiteList) := by
      show S.selectL1 d = _
      simp only [Perc.selectL1, M.lat, mkLat_siteCount]
      rw [if_pos (by omega)]
    obtain ⟨S', p1, p2, K⟩ := placeOneSite_of_select M I hs
    refine ⟨S', false, p1, ?_⟩
    obtain ⟨_, hocc, hcnt, _⟩ := (placeOneSite_occ M I p1).resolve_left (fun h => by rw [p2] at h; exact absurd h.1 (by simp))
    refine ⟨W.congr K.siteIds K.currentIdx (fun s h => (hocc s).2 h) (fun x => (K.cnt x).1) (by rw [hcnt]; exact W.sum), fun h => (by cases h), fun _ => ?_⟩
    exact ⟨by omega, K.currentIdx, by simpa using left_congr (L := L) (m := 0) K.siteIds K.currentIdx (fun x => (K.cnt x).1) hcnt⟩

/-- One L2 call in the default mode. -/
theorem Window.placeL2 (W : Window L S S.cnt2) (hn : ∀ x < L * L, 0 ≤ S.cnt1 x) (M : Sim env L S A) (hA : AReach env L A) (d : Draw) :
    ∃ S' b, S.placeOneSite env .l2 d = .ok (S', b) ∧ Window L S' S'.cnt2 ∧ (∀ x < L * L, 0 ≤ S'.cnt1 x) ∧
      (b = true → 0 < S.left L S.cnt2 ∧ S'.left L S'.cnt2 + 1 = S.left L S.cnt2) ∧
      (b = false → L * L ≤ S.currentIdx ∧ S'.currentIdx = S.currentIdx ∧ S'.left L S'.cnt2 = S.left L S.cnt2) := by
  have I := hA.inv
  by_cases hc : S.currentIdx < L * L
  · have hcl : S.currentIdx < S.siteIds.length := by rw [W.len]; exact hc
    have hrl : S.currentIdx + d.a % (S.siteIds.length - S.currentIdx) < S.siteIds.length := by
      have := Nat.mod_lt d.a (show 0 < S.siteIds.length - S.currentIdx by omega); omega
    have hx : S.siteIds[S.currentIdx + d.a % (S.siteIds.length - S.currentIdx)]? = some S.siteIds[S.currentIdx + d.a % (S.siteIds.length - S.currentIdx)] :=
      List.getElem?_eq_getElem hrl
    generalize S.siteIds[S.currentIdx + d.a % (S.siteIds.length - S.currentIdx)] = x at hx
    have hxl : x < L * L := W.lt x (List.mem_of_getElem? hx)
    have hsel := selectL2_eq M.lat d hc hcl rfl hx hxl
    have hxw : x ∈ S.pool' := by
      apply List.mem_of_getElem? (i := d.a % (S.siteIds.length - S.currentIdx))
      unfold Perc.pool'
      rw [List.getElem?_drop]; exact hx
    have hn1 : ¬ A.V.n1 x < 0 := by
      have := hn x hxl
      rw [cnt1_mk M.lat hxl] at this; omega
    have hn2 : ¬ A.V.n2 x < 0 := by
      have := W.pos x hxw
      rw [cnt2_mk M.lat hxl] at this; omega
    have hdec : ∀ n : Int, 0 ≤ n → 0 ≤ dec n := by intro n h; unfold dec; split <;> omega
    -- the first counters after `x` has been reduced
    have hred : ∀ W2 : LV, W2.n1 = upd A.V.n1 x (dec (A.V.n1 x)) → ∀ y < L * L, 0 ≤ W2.n1 y := by
      intro W2 e y hy
      rw [e]
      unfold upd
      split
      · exact hdec _ (by omega)
      · have := hn y hy
        rw [cnt1_mk M.lat hy] at this; exact this
    have key : ∀ (S1 : Perc α) (V1 : LV) (k : Nat), S1.lat = mkLat L V1 → V1.sg = A.V.sg → V1.n2 = A.V.n2 → (∀ y < L * L, 0 ≤ V1.n1 y) →
        S1.siteIds = S.siteIds → S1.currentIdx = S.currentIdx →
        k < L * L → ¬ 0 ≤ A.V.sg k → S.selectL2 d = S1.finishSelect k →
        ∃ S' b, S.placeOneSite env .l2 d = .ok (S', b) ∧ Window L S' S'.cnt2 ∧ (∀ x < L * L, 0 ≤ S'.cnt1 x) ∧
          (b = true → 0 < S.left L S.cnt2 ∧ S'.left L S'.cnt2 + 1 = S.left L S.cnt2) ∧
          (b = false → L * L ≤ S.currentIdx ∧ S'.currentIdx = S.currentIdx ∧ S'.left L S'.cnt2 = S.left L S.cnt2) := by
      intro S1 V1 k e1 f1 f2 f3 e2 e3 hk hu hs
      have hu' : V1.sg k = -1 := by
        rw [f1]
        rcases I.core.sgr k hk with h | h
        · exact h
        · exact absurd h.1 hu
      rw [finishSelect_ok e1 hk hu'] at hs
      replace hs : S.selectSite .l2 d = _ := hs
      obtain ⟨S', p1, p2, K⟩ := placeOneSite_of_select M I hs
      refine ⟨S', true, p1, ?_⟩
      obtain ⟨A', hst, M'⟩ := placeOneSite_steps M I p1
      obtain ⟨_, _, k', _, _, _, hocc, hcnt⟩ := (placeOneSite_occ M I p1).resolve_right (fun h => h.1 p2)
      have hcc : ∀ x, S'.cnt2 x = S.cnt2 x := fun x => by
        rw [(K.cnt x).2]
        by_cases hx : x < L * L
        · rw [cnt2_mk (V := V1) (by exact e1) hx, cnt2_mk M.lat hx, f2]
        · unfold Perc.cnt2
          show (match S1.lat.getSite x with | .ok st => st.nn2 | .error _ => 0) = _
          rw [e1, M.lat, getSite_mk_error (by omega), getSite_mk_error (by omega)]
      obtain ⟨w1, w2⟩ := W.success (K.siteIds.trans e2) (K.currentIdx.trans e3) (fun s h => (hocc s).2 (Or.inl h)) hcc hcnt
        (occupiedCount_le M' (hA.steps hst))
      refine ⟨w1, fun y hy => ?_, fun _ => ⟨W.pos_left hc, w2⟩, fun h => by cases h⟩
      rw [(K.cnt y).1, cnt1_mk (V := V1) (by exact e1) hy]
      exact f3 y hy
    have hn' : ∀ y < L * L, 0 ≤ A.V.n1 y := fun y hy => by
      have := hn y hy
      rwa [cnt1_mk M.lat hy] at this
    by_cases h0 : 0 ≤ A.V.sg x
    · rw [if_pos h0] at hsel
      by_cases h1 : 0 ≤ A.V.sg (nbr L x (dirOf d.b))
      · rw [if_pos h1, if_neg hn1] at hsel
        by_cases h2 : 0 ≤ A.V.sg (zOf L x (nbr L x (dirOf d.b)))
        · rw [if_pos h2, if_neg hn2] at hsel
          replace hsel : S.selectSite .l2 d = _ := hsel
          obtain ⟨S', p1, p2, K⟩ := placeOneSite_of_select M I hsel
          refine ⟨S', true, p1, ?_⟩
          obtain ⟨_, hocc, hcnt, _⟩ := (placeOneSite_occ M I p1).resolve_left (fun h => by rw [p2] at h; exact absurd h.1 (by simp))
          have hcc : ∀ y, S'.cnt2 y = if y = x then dec (S.cnt2 x) else S.cnt2 y := by
            intro y
            rw [(K.cnt y).2]
            by_cases hy : y < L * L
            · rw [cnt2_mk (V := { A.V with n1 := upd A.V.n1 x (dec (A.V.n1 x)), n2 := upd A.V.n2 x (dec (A.V.n2 x)) }) rfl hy,
                cnt2_mk M.lat hy, cnt2_mk M.lat hxl]; rfl
            · rw [if_neg (by rintro rfl; exact hy hxl)]
              unfold Perc.cnt2
              rw [M.lat, getSite_mk_error (by omega)]
              show (match (mkLat L { A.V with n1 := upd A.V.n1 x (dec (A.V.n1 x)), n2 := upd A.V.n2 x (dec (A.V.n2 x)) }).getSite y with
                | .ok st => st.nn2 | .error _ => 0) = _
              rw [getSite_mk_error (by omega)]
          have hd : dec (A.V.n2 x) = dec (S.cnt2 x) := by rw [cnt2_mk M.lat hxl]
          obtain ⟨w1, w2⟩ := W.fail (S' := S') (n' := S'.cnt2) (Nat.le_add_right _ _) hx hc (occ_of_sg M hxl h0)
            (by rw [K.siteIds, ← hd]; rfl) (by rw [K.currentIdx, ← hd]; rfl) hocc hcc hcnt
          refine ⟨w1, fun y hy => ?_, fun _ => ⟨W.pos_left hc, w2⟩, fun h => by cases h⟩
          rw [(K.cnt y).1, cnt1_mk (V := { A.V with n1 := upd A.V.n1 x (dec (A.V.n1 x)), n2 := upd A.V.n2 x (dec (A.V.n2 x)) }) rfl hy]
          exact hred _ rfl y hy
        · rw [if_neg h2] at hsel
          exact key _ { A.V with n1 := upd A.V.n1 x (dec (A.V.n1 x)) } _ (by exact rfl) rfl rfl (hred _ rfl) (by exact rfl) (by exact rfl)
            (siteBeyond_mk (V := A.V) hxl (nbr_lt hxl _)).2 h2 hsel
      · rw [if_neg h1] at hsel
        exact key _ A.V _ (by exact M.lat) rfl rfl hn' (by exact rfl) (by exact rfl) (nbr_lt hxl _) h1 hsel
    · rw [if_neg h0] at hsel
      exact key _ A.V _ M.lat rfl rfl hn' rfl rfl hxl h0 hsel
  · have hs : S.selectSite .l2 d = .ok (S, .emptySiteList) := by
      show S.selectL2 d = _
      simp only [Perc.selectL2, M.lat, mkLat_siteCount]
      rw [if_pos (by omega)]
    obtain ⟨S', p1, p2, K⟩ := placeOneSite_of_select M I hs
    refine ⟨S', false, p1, ?_⟩
    obtain ⟨_, hocc, hcnt, _⟩ := (placeOneSite_occ M I p1).resolve_left (fun h => by rw [p2] at h; exact absurd h.1 (by simp))
    refine ⟨W.congr K.siteIds K.currentIdx (fun s h => (hocc s).2 h) (fun x => (K.cnt x).2) (by rw [hcnt]; exact W.sum),
      fun y hy => by rw [(K.cnt y).1]; exact hn y hy, fun h => (by cases h), fun _ => ?_⟩
    exact ⟨by omega, K.currentIdx, by simpa using left_congr (L := L) (m := 0) K.siteIds K.currentIdx (fun x => (K.cnt x).2) hcnt⟩

end SqPerc
