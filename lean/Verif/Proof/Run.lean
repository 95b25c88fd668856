import Verif.Proof.Ids
import Verif.Props.Obs
/-
Progress of runs: which calls of `place_one_site` return True, for all classes.
-/
namespace SqPerc

variable {α : Type} {L : Nat} {env : Env α} {v : Variant} {S S1 S' : Perc α} {A : Abs α} {d : Draw} {b : Bool}

/-- Effect of `place_one_site` on the occupied sites. -/
theorem placeOneSite_occ (M : Sim env L S A) (I : AInv L A) (h : S.placeOneSite env v d = .ok (S', b)) :
    (S'.selectionFlag = some .success ∧ b = true ∧ ∃ k, S'.selected = some k ∧ k < L * L ∧ ¬ S.Occ k ∧
      (∀ s, S'.Occ s ↔ S.Occ s ∨ s = k) ∧ S'.occupiedCount = S.occupiedCount + 1) ∨
    (S'.selectionFlag ≠ some .success ∧ (∀ s, S'.Occ s ↔ S.Occ s) ∧ S'.occupiedCount = S.occupiedCount ∧
      b = decide (S'.selectionFlag = some .currentSiteNotEmpty)) := by
  obtain ⟨_, V1, hV, h | h | h⟩ := placeOneSite_sim M I h
  · obtain ⟨h1, h2, k, r, V', P', hk, hu, E, _, hsel, M'⟩ := h
    left
    refine ⟨h1, h2, k, hsel, hk, ?_, ?_, ?_⟩
    · rw [M.occ_iff]; rintro ⟨_, h0⟩; omega
    · intro s
      rw [M'.occ_iff, M.occ_iff, ← hV.vocc]
      exact E.occ_iff (I.core.same hV) hk s
    · rw [M'.count, M.count]; rfl
  · obtain ⟨h1, h2, M'⟩ := h
    right
    refine ⟨by rw [h1]; simp, ?_, M'.count.trans M.count.symm, by rw [h1]; simpa using h2⟩
    intro s
    rw [M'.occ_iff, M.occ_iff, ← hV.vocc]
  · obtain ⟨h1, h2, M'⟩ := h
    right
    refine ⟨by rw [h1]; simp, ?_, M'.count.trans M.count.symm, by rw [h1]; simpa using h2⟩
    intro s
    rw [M'.occ_iff, M.occ_iff, ← hV.vocc]

theorem KeepSel.refl (S : Perc α) : KeepSel S S := ⟨rfl, rfl, rfl, rfl, rfl, rfl, rfl, fun _ => ⟨rfl, rfl⟩⟩

/-- `detect_wrapping` touches only the wrapping data. -/
theorem detectWrapping_keep {w : Bool} (M : Sim env L S A) (I : AInv L A) (h : S.detectWrapping = .ok (S', w)) :
    KeepSel S S' ∧ (∀ s, S'.Occ s ↔ S.Occ s) ∧ S'.occupiedCount = S.occupiedCount := by
  rcases detectWrapping_sim M I h with ⟨_, rfl, _⟩ | ⟨_, k, _, ⟨_, rfl, _⟩ | ⟨_, _, _, rfl⟩⟩
  · exact ⟨KeepSel.refl _, fun _ => Iff.rfl, rfl⟩
  · exact ⟨KeepSel.refl _, fun _ => Iff.rfl, rfl⟩
  · exact ⟨⟨rfl, rfl, rfl, rfl, rfl, rfl, rfl, fun _ => ⟨rfl, rfl⟩⟩, fun _ => Iff.rfl, rfl⟩

/-! ### L0: any list of ids -/

/-- The object works through the list `ids`, of which the first `i` have been placed. -/
structure L0Ready (L : Nat) (S : Perc α) (ids : List Nat) (i : Nat) : Prop where
  siteIds : S.siteIds = ids
  maxIter : S.maxIter = ids.length
  currentIdx : S.currentIdx = i
  le : i ≤ ids.length
  lt : ∀ k ∈ ids, k < L * L
  occ : ∀ s, S.Occ s ↔ s ∈ ids.take i

theorem selectSite_plain (hv : v.plain = true) : S.selectSite v d = S.selectL0 := by
  cases v <;> first | rfl | cases hv

theorem not_occ_iff (M : Sim env L S A) (I : AInv L A) {k : Nat} (hk : k < L * L) : ¬ S.Occ k ↔ A.V.sg k = -1 := by
  rw [M.occ_iff]
  constructor
  · intro h
    rcases I.core.sgr k hk with h' | h'
    · exact h'
    · exact absurd ⟨hk, h'.1⟩ h
  · rintro h ⟨_, h0⟩; omega

theorem L0Ready.congr {ids : List Nat} {i : Nat} (H : L0Ready L S ids i) (h1 : S'.siteIds = S.siteIds) (h2 : S'.maxIter = S.maxIter)
    (h3 : S'.currentIdx = S.currentIdx) (h4 : ∀ s, S'.Occ s ↔ S.Occ s) : L0Ready L S' ids i :=
  ⟨h1.trans H.siteIds, h2.trans H.maxIter, h3.trans H.currentIdx, H.le, H.lt, fun s => (h4 s).trans (H.occ s)⟩

/-- A new id in the list is placed. -/
theorem L0Ready.place {ids : List Nat} {i k : Nat} (H : L0Ready L S ids i) (M : Sim env L S A) (I : AInv L A) (hv : v.plain = true)
    (hk : ids[i]? = some k) (hn : k ∉ ids.take i) (d : Draw) :
    ∃ S', S.placeOneSite env v d = .ok (S', true) ∧ S'.selectionFlag = some .success ∧ S'.selected = some k ∧ L0Ready L S' ids (i + 1) := by
  have hil := (List.getElem?_eq_some_iff.1 hk).1
  have hkl : k < L * L := H.lt k (List.mem_of_getElem? hk)
  have hu : A.V.sg k = -1 := (not_occ_iff M I hkl).1 (by rw [H.occ]; exact hn)
  have hs := selectL0_ok (S := S) (k := k) M.lat (by rw [H.currentIdx, H.maxIter]; exact hil)
    (by rw [H.currentIdx, H.siteIds]; exact hk) hkl hu
  rw [← selectSite_plain (v := v) (d := d) hv] at hs
  obtain ⟨S', h1, h2, h3⟩ := placeOneSite_of_select M I hs
  refine ⟨S', h1, h2, h3.selected, ?_⟩
  obtain ⟨_, _, k', hk', _, _, hocc, _⟩ := (placeOneSite_occ M I h1).resolve_right (fun h => h.1 h2)
  have : k' = k := by
    have := hk'.symm.trans h3.selected
    exact Option.some.inj this
  subst this
  refine ⟨h3.siteIds.trans H.siteIds, (placeOneSite_sim M I h1).1.maxIter.trans H.maxIter, ?_, hil, H.lt, ?_⟩
  · rw [h3.currentIdx]; show S.currentIdx + 1 = _; rw [H.currentIdx]
  · intro s
    rw [hocc, H.occ, List.take_add_one, hk]
    simp

/-- A repeated id raises AssertionError. -/
theorem L0Ready.repeat {ids : List Nat} {i k : Nat} (H : L0Ready L S ids i) (M : Sim env L S A) (I : AInv L A) (hv : v.plain = true)
    (hk : ids[i]? = some k) (hn : k ∈ ids.take i) (d : Draw) : S.placeOneSite env v d = .error .assertionError := by
  have hil := (List.getElem?_eq_some_iff.1 hk).1
  have hkl : k < L * L := H.lt k (List.mem_of_getElem? hk)
  have hu : A.V.sg k ≠ -1 := fun h => (not_occ_iff M I hkl).2 h ((H.occ k).2 hn)
  simp only [Perc.placeOneSite]
  rw [selectSite_plain hv]
  have hs : S.selectL0 = .error .assertionError := by
    simp only [Perc.selectL0, pyGet, H.siteIds, H.currentIdx, hk, H.maxIter, M.lat]
    rw [if_neg (by omega)]
    show ((mkLat L A.V).getSite k >>= _) = _
    rw [getSite_mk hkl]
    show (pyAssert (decide (A.V.sg k = -1)) >>= _) = _
    rw [show decide (A.V.sg k = -1) = false by simpa using hu]; rfl
  rw [hs]; rfl

/-- At the end of the list `place_one_site` returns False. -/
theorem L0Ready.done {ids : List Nat} (H : L0Ready L S ids ids.length) (hv : v.plain = true) (d : Draw) :
    ∃ S', S.placeOneSite env v d = .ok (S', false) ∧ S' = { S with selectionFlag := some .emptySiteList } ∧ L0Ready L S' ids ids.length := by
  refine ⟨_, ?_, rfl, H.congr rfl rfl rfl fun _ => Iff.rfl⟩
  simp only [Perc.placeOneSite]
  rw [selectSite_plain hv, selectL0_end (by rw [H.maxIter, H.currentIdx])]
  rfl

end SqPerc
