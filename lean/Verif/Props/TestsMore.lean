import Verif.Props.Tests
import Verif.Props.Ending
import Verif.Props.ShortestPath
/-
C64, continued: `custome_lattice_config_2`, and what the assertions at the end of the tests of the shortest path class check.
-/
namespace SqPerc

variable {α : Type} {env : Env α} {L : Nat} {S S' S1 : Perc α} {v : Variant} {seq : List Nat}

/-- `while place_one_site(): pass` in L1 and L2 ends; it returns normally only if `L²` entries of the list have been used up. -/
theorem placeAll_l1l2 (h0 : 0 < L) (hv : v.plain = false) (fuel : Nat) : ∀ {ds : Nat → Draw} {S S0 : Perc α}, Between env v L S0 S →
    S.fuelLeft L v < fuel →
    (∃ S', placeAll env v fuel ds S = .ok S' ∧ Between env v L S0 S' ∧ L * L ≤ S'.currentIdx) ∨ placeAll env v fuel ds S = .error .valueError := by
  induction fuel with
  | zero => intro ds S S0 _ h; omega
  | succ fuel ih =>
    intro ds S S0 B h
    simp only [placeAll]
    rcases B.good.place (ds 0) with hp | ⟨S1, b, hp, G1, hlt, _⟩
    · rw [hp, hv]; exact Or.inr rfl
    · rw [hp]
      have B1 := B.place h0 hv hp
      cases b with
      | false =>
        obtain ⟨A, M, hA⟩ := B.good.sim
        rcases place_pool M hA.inv hv hp with ⟨_, hc, _, e2, _⟩ | ⟨hb, _⟩ | ⟨hb, _⟩
        · exact Or.inl ⟨S1, rfl, B1, by rw [e2]; exact hc⟩
        · cases hb
        · cases hb
      | true => exact ih (S := S1) B1 (Nat.lt_of_lt_of_le (hlt rfl) (Nat.le_of_lt_succ h))

/-- C64: `custome_lattice_config_2` with L0 passes and leaves exactly its twelve sites occupied. -/
theorem C64_config2_l0 {fuel : Nat} (hf : 12 < fuel) (draws draws' : Nat → Nat) (ds : Nat → Draw) :
    ∃ S', testConfig2 env .l0 fuel draws draws' ds = .ok S' ∧ Reach env .l0 6 S' ∧
      ∀ s, S'.Occ s ↔ s ∈ [2, 8, 14, 19, 20, 25, 26, 27, 28, 29, 34, 35] := by
  obtain ⟨S, e, F⟩ := fresh_exists env .l0 (L := 6) (by omega) draws
  have R := F.defReach.reach
  obtain ⟨rev, e1, _⟩ := setIds_on R (ids := configIds ++ [26]) (by decide) (by decide) draws'
  have hperm := pyShuffle_perm draws' ((configIds ++ [26]).map Int.toNat)
  obtain ⟨ids, hids⟩ : ∃ ids, ids = pyShuffle draws' ((configIds ++ [26]).map Int.toNat) := ⟨_, rfl⟩
  rw [← hids] at hperm e1
  have hlen : ids.length = 12 := hperm.length_eq
  have hnd : ids.Nodup := hperm.nodup_iff.2 (by decide)
  have hlt : ∀ k ∈ ids, k < 6 * 6 := fun k hk => by
    have hk' := hperm.mem_iff.1 hk
    clear hk; revert k; decide
  have R1 := Reach.step (.setIds (configIds ++ [26]) true draws') R e1
  have H1 : L0Ready 6 { S with siteIds := ids, revIds := rev, modeCustom := true, doShuffle := true, maxIter := (configIds ++ [26]).length } ids 0 := by
    refine ⟨rfl, hlen.symm, F.live.2.2.1, by omega, hlt, fun s => ?_⟩
    rw [List.take_zero]
    exact ⟨fun h => absurd h (F.live.2.2.2 s), fun h => by cases h⟩
  obtain ⟨S2, e2, R2, H2, _⟩ := placeAll_ready (env := env) (v := .l0) rfl hnd fuel ds H1 R1 (by omega)
  refine ⟨S2, by simp only [testConfig2, e, bind, Except.bind, e1, e2], R2, fun s => ?_⟩
  rw [H2.occ, List.take_length, hperm.mem_iff]
  exact (by decide : ((configIds ++ [26]).map Int.toNat).Perm [2, 8, 14, 19, 20, 25, 26, 27, 28, 29, 34, 35]).mem_iff

/-- C64: `custome_lattice_config_2` with L1 or L2 always raises ValueError: twelve candidates are fewer than the lattice has sites. -/
theorem C64_config2_l1l2 (hv : v.plain = false) {fuel : Nat} (hf : 84 < fuel) (draws draws' : Nat → Nat) (ds : Nat → Draw) :
    testConfig2 env v fuel draws draws' ds = .error .valueError := by
  obtain ⟨S, e, F⟩ := fresh_exists env v (L := 6) (by omega) draws
  have R := F.defReach.reach
  obtain ⟨rev, e1, _⟩ := setIds_on R (ids := configIds ++ [26]) (by decide) (by decide) draws'
  have hperm := pyShuffle_perm draws' ((configIds ++ [26]).map Int.toNat)
  obtain ⟨ids, hids⟩ : ∃ ids, ids = pyShuffle draws' ((configIds ++ [26]).map Int.toNat) := ⟨_, rfl⟩
  rw [← hids] at hperm e1
  have hlen : ids.length = 12 := hperm.length_eq
  have R1 := Reach.step (.setIds (configIds ++ [26]) true draws') R e1
  obtain ⟨T, hT⟩ : ∃ T : Perc α, T = { S with siteIds := ids, revIds := rev, modeCustom := true, doShuffle := true, maxIter := (configIds ++ [26]).length } := ⟨_, rfl⟩
  rw [← hT] at e1 R1
  have hl : T.siteIds.length = 12 := by rw [hT]; exact hlen
  have hc : T.currentIdx = 0 := by rw [hT]; exact F.live.2.2.1
  have hfl := fuelLeft_le R1
  rw [hl] at hfl
  simp only [testConfig2, e, bind, Except.bind, e1]
  rcases placeAll_l1l2 (L := 6) (by omega) hv fuel (ds := ds) (Between.refl R1.good) (by omega) with ⟨S', _, B, hS'⟩ | h
  · have := B.len
    rcases B.cur with h | h <;> omega
  · exact h

/-- C64: the assertions at the end of the tests of the shortest path class hold exactly if: in case no point was recorded, no row or column
lies in the wrapping cluster; and otherwise some row or column does (`strict`, line 72) or not both do (line 35). -/
theorem C64_scans (T : Trace env .sp L S seq) (isZero : α → Bool) (strict : Bool) :
    testScans isZero strict S = .ok () ↔
      (isZero S.shortestP = true → ¬ AnyStraight L seq) ∧
      (isZero S.shortestP = false → strict = true → AnyStraight L seq) ∧
      (isZero S.shortestP = false → strict = false → ¬ (HasWrapped L seq ∧ (∃ r < L, RowIn L (InWrap L seq) r) ∧ ∃ c < L, ColIn L (InWrap L seq) c)) := by
  obtain ⟨h1, h2⟩ := T.scanAll
  have gen : ∀ (a r c : Prop) (f1 f2 : Bool), (f1 = true ↔ a ∧ c) → (f2 = true ↔ a ∧ r) →
      ((if isZero S.shortestP = true then pyAssert (!f1 && !f2) else pyAssert (if strict = true then f1 || f2 else !f1 || !f2)) = .ok () ↔
        (isZero S.shortestP = true → ¬ (a ∧ (r ∨ c))) ∧ (isZero S.shortestP = false → strict = true → a ∧ (r ∨ c)) ∧
        (isZero S.shortestP = false → strict = false → ¬ (a ∧ r ∧ c))) := by
    intro a r c f1 f2 e1 e2
    unfold pyAssert
    cases isZero S.shortestP <;> cases strict <;> cases f1 <;> cases f2 <;> simp_all <;> tauto
  simp only [testScans, h1, h2, bind, Except.bind]
  exact gen _ _ _ _ _ (by simp) (by simp)

/-- A state in which the recorded point contradicts the lattice fails the test: the full lattice of length 3 with nothing recorded. -/
example : ∃ S : Perc Unit, Reach demoEnv .sp 3 S ∧ testScans (fun _ => true) true S = .error .assertionError ∧ testScans (fun _ => false) true S = .ok () ∧
    testScans (fun _ => false) false S = .error .assertionError := by
  obtain ⟨S, h, hp⟩ := checkOps_reach (env := demoEnv) (v := .sp) (L := 3) (ops := (List.replicate 9 [.place ⟨0, 0⟩, .detect]).flatten)
    (p := fun S => (match testScans (fun _ => true) true S with | .error .assertionError => true | _ => false) &&
      (match testScans (fun _ => false) true S with | .ok _ => true | _ => false) &&
      (match testScans (fun _ => false) false S with | .error .assertionError => true | _ => false)) (by decide +kernel)
  simp only [Bool.and_eq_true] at hp
  obtain ⟨⟨h1, h2⟩, h3⟩ := hp
  refine ⟨S, h, ?_, ?_, ?_⟩
  · split at h1 <;> first | assumption | cases h1
  · split at h2 <;> first | assumption | cases h2
  · split at h3 <;> first | assumption | cases h3

end SqPerc
