import Verif.Props.Runs
import Verif.Props.Lists
import Verif.Proof.Raise
import Verif.Proof.Custom
/-
C28 for the plain classes with custom lists: after any history, a reset object behaves as a new object that was given the same list.
-/
namespace SqPerc

variable {α : Type} {L : Nat} {env : Env α} {v : Variant} {S S' N N1 : Perc α}

theorem reset_as_listed {draws draws' draws'' : Nat → Nat} (hv : v.plain = true) (h : Reach env v L S) (hr : S.reset env v draws = .ok S')
    (hn : Perc.new env L draws' = .ok N) (hset : N.setCustomIds (S'.siteIds.map Int.ofNat) false draws'' = .ok N1) :
    S' = N1.put S' ∧ 0 < N1.maxIter ∧ N1.currentIdx = 0 := by
  have hR' : Reach env v L S' := .step (.reset draws) h hr
  have hsz := hR'.sized hv
  have hne : S'.siteIds.map Int.ofNat ≠ [] := by
    intro hc
    rw [hc] at hset
    simp [Perc.setCustomIds] at hset
  have hrN : Reach env v L N := .new hn
  obtain ⟨_, A, M, hA⟩ := hrN.sim
  have hlt : ∀ i ∈ S'.siteIds.map Int.ofNat, 0 ≤ i ∧ i < (L : Int) * L := by
    intro i hi
    obtain ⟨k, hk, rfl⟩ := List.mem_map.1 hi
    rw [Int.ofNat_eq_natCast]
    have := hR'.ids.1 k hk
    exact ⟨by omega, by exact_mod_cast this⟩
  rw [setIds_off M hne hlt] at hset
  obtain rfl := Except.ok.inj hset
  obtain ⟨e, _⟩ := reset_new h hr hn
  have em : (S'.siteIds.map Int.ofNat).map Int.toNat = S'.siteIds := by
    rw [List.map_map]
    exact List.map_id'' (fun k => Int.toNat_natCast k) _
  refine ⟨?_, ?_, ?_⟩
  · conv_lhs => rw [e]
    simp only [em, List.length_map, hsz]
    rfl
  · show 0 < (S'.siteIds.map Int.ofNat).length
    exact List.length_pos_iff.2 hne
  · obtain ⟨_, rev', rfl, _⟩ := new_inv hn
    rfl

/-- C28, after any history, including custom lists, shuffling on or off, and calls that raised: a reset object of a plain class behaves as a new
object that was given the same list of sites without shuffling.  Any sequence of placements, detections and runs that starts with a placement gives the
same returned values, the same exceptions and the same visible state. -/
theorem C28_any_history {draws draws' draws'' : Nat → Nat} (hv : v.plain = true) (h : Reach env v L S) (hr : S.reset env v draws = .ok S')
    (hn : Perc.new env L draws' = .ok N) (hset : N.setCustomIds (S'.siteIds.map Int.ofNat) false draws'' = .ok N1) {d : Draw} {ops : List Op}
    (ho : ∀ op ∈ ops, op.isGrowth = true) :
    PyRel (fun r r' : Perc α × List (Option Bool) => Looks r.1 r'.1 ∧ r'.2 = r.2)
      (answers env v (.place d :: ops) N1) (answers env v (.place d :: ops) S') := by
  obtain ⟨e1, hpos, hidx⟩ := reset_as_listed hv h hr hn hset
  have hrN : Reach env v L N1 := .step (.setIds _ _ _) (.new hn) hset
  obtain ⟨_, A, M, hA⟩ := hrN.sim
  have hfl : ∃ R, N1.placeOneSite env v d = .ok (R, true) ∧ R.selectionFlag = some .success := by
    rcases place_plain M hA.inv hv (hrN.sized hv) hrN.ids.1 d with ⟨h1, _⟩ | ⟨_, k, _, _, R, h1, h2, _⟩ | ⟨_, k, hk, ho, _⟩
    · omega
    · exact ⟨R, h1, h2⟩
    · exfalso
      have hF : Fresh env v L N := .new hn
      have hlat : N1.lat = N.lat := by
        have : S'.lat = N.lat := (C28_reset_state h hr hn).1
        rw [← this, e1]
        rfl
      refine hF.live.2.2.2 k ?_
      unfold Perc.Occ at ho ⊢
      rw [← hlat]
      exact ho
  obtain ⟨N2, p1, hfl⟩ := hfl
  refine PyRel.bind (R := fun r r' : Perc α × Option Bool => Agree r.1 r'.1 ∧ r'.2 = r.2) ?_ ?_
  · have hp := place_put (env := env) (v := v) e1 d
    simp only [answer]
    rw [p1] at hp ⊢
    cases hq : S'.placeOneSite env v d with
    | error x => rw [hq] at hp; exact hp
    | ok r' =>
      rw [hq] at hp
      obtain ⟨h1, h2, h3, h4⟩ := hp
      exact ⟨⟨h2, h4 (Or.inl hfl), h3⟩, congrArg some h1⟩
  · rintro ⟨R, b⟩ ⟨R', b'⟩ ⟨h1, h2⟩
    simp only at h1 h2
    subst h2
    refine (answers_agree ops h1 ho).bind ?_
    rintro ⟨R, bs⟩ ⟨R', bs'⟩ ⟨h3, h4⟩
    simp only at h3 h4
    subst h4
    exact ⟨h3.looks, rfl⟩

/-- C28, after any history: in particular a complete `run_once()`. -/
theorem C28_any_run {draws draws' draws'' : Nat → Nat} (hv : v.plain = true) (h : Reach env v L S) (hr : S.reset env v draws = .ok S')
    (hn : Perc.new env L draws' = .ok N) (hset : N.setCustomIds (S'.siteIds.map Int.ofNat) false draws'' = .ok N1) (fuel : Nat) (ds : Nat → Draw) :
    PyRel (fun R R' : Perc α => R'.lat = R.lat ∧ R'.pool = R.pool ∧ R'.entropyList = R.entropyList ∧ R'.orderWrapList = R.orderWrapList ∧
      R'.orderLargestList = R.orderLargestList ∧ R'.pcOccupied = R.pcOccupied ∧ R'.pcBonds = R.pcBonds ∧ R'.pcSites = R.pcSites ∧
      R'.seqRecord = R.seqRecord ∧ R'.xOccupied = R.xOccupied ∧ R'.yOccupied = R.yOccupied ∧ R'.shortestP = R.shortestP)
      (N1.runOnceV env v fuel ds) (S'.runOnceV env v fuel ds) := by
  obtain ⟨e1, _⟩ := reset_as_listed hv h hr hn hset
  have := runOnceV_agree (env := env) (v := v) e1 fuel ds
  revert this
  cases N1.runOnceV env v fuel ds with
  | error x => cases S'.runOnceV env v fuel ds <;> exact id
  | ok a => cases S'.runOnceV env v fuel ds with
    | error x => exact id
    | ok b =>
      rintro ⟨h1, _⟩
      obtain ⟨T, rfl⟩ : ∃ T, b = a.put T := ⟨b, h1⟩
      exact ⟨rfl, rfl, rfl, rfl, rfl, rfl, rfl, rfl, rfl, rfl, rfl, rfl⟩

/-- A new object with the list of the reset object always exists, provided the list is not empty. -/
example {draws : Nat → Nat} (h : Reach env v L S) (hr : S.reset env v draws = .ok S') (hne : S'.siteIds ≠ []) :
    ∃ draws' draws'' N N1, Perc.new env L draws' = .ok N ∧ N.setCustomIds (S'.siteIds.map Int.ofNat) false draws'' = .ok N1 := by
  obtain ⟨N, hN, _⟩ := (C32_new (env := env) h.sim.1).1 (fun _ => 0)
  have hR' : Reach env v L S' := .step (.reset draws) h hr
  obtain ⟨_, A, M, hA⟩ := (Reach.new (v := v) hN).sim
  refine ⟨_, fun _ => 0, N, _, hN, setIds_off M (by simpa using hne) ?_ _⟩
  intro i hi
  obtain ⟨k, hk, rfl⟩ := List.mem_map.1 hi
  rw [Int.ofNat_eq_natCast]
  have := hR'.ids.1 k hk
  exact ⟨by omega, by exact_mod_cast this⟩

end SqPerc
