import Verif.Proof.Uniform
import Verif.Props.Runs
import Verif.Props.Lists
/-
Property C57: every order of occupation is equally likely in the plain classes.
-/
namespace SqPerc

variable {α : Type} {L : Nat} {env : Env α} {v : Variant} {S : Perc α}

/-- C57: `random.shuffle` of distinct elements: every order comes from exactly one vector of random numbers (one number `0 ≤ j ≤ i` for
every position `i`). -/
theorem C57_shuffle_bijective {l p : List Nat} (hl : l.Nodup) (hp : p.Perm l) : ∃! x : DrawVec l.length, pyShuffle x.draws l = p := by
  obtain ⟨x, hx⟩ := pyShuffle_vec_surj hp
  exact ⟨x, hx, fun y hy => pyShuffle_inj hl rfl (hy.trans hx.symm)⟩

/-- C57: a new object has any given site order for exactly one vector of random numbers; in the plain classes a `run_once` then occupies
the sites in this order. -/
theorem C57_new (env : Env α) (hL : 0 < L) {p : List Nat} (hp : p.Perm (List.range (L * L))) :
    (∃! x : DrawVec (L * L), ∃ S, Perc.new env L x.draws = .ok S ∧ S.siteIds = p) ∧
    ∀ (v : Variant), v.plain = true → ∀ (fuel : Nat) (ds : Nat → Draw), L * L < fuel →
      ∃! x : DrawVec (L * L), ∃ S S', Perc.new env L x.draws = .ok S ∧ S.runOnce env v fuel ds = .ok S' ∧ S'.siteIds = p ∧
        Trace env v L S' p := by
  have hlen : (List.range (L * L)).length = L * L := List.length_range
  have hsurj := pyShuffle_vec_surj hp
  rw [hlen] at hsurj
  obtain ⟨x, hx⟩ := hsurj
  have huniq : ∀ y : DrawVec (L * L), (∃ S, Perc.new env L y.draws = .ok S ∧ S.siteIds = p) → y = x := by
    rintro y ⟨S, h1, h2⟩
    obtain ⟨rev, e, _⟩ := new_ok env hL y.draws
    rw [e] at h1
    rw [← Except.ok.inj h1] at h2
    exact pyShuffle_inj List.nodup_range hlen (Eq.trans h2 hx.symm)
  obtain ⟨rev, e, _⟩ := new_ok env hL x.draws
  refine ⟨⟨x, ⟨_, e, hx⟩, huniq⟩, fun v hv fuel ds hf => ?_⟩
  obtain ⟨S', h1, h2, h3, _⟩ := C24_run_once (v := v) hv (.new e) hf ds
  refine ⟨x, ⟨_, S', e, h1, h3.trans hx, ?_⟩, ?_⟩
  · have h4 : (pyShuffle x.draws (List.range (L * L))) = p := hx
    rw [← h4]; exact h2
  · rintro y ⟨S, S', h1, h2, h3, _⟩
    refine huniq y ⟨S, h1, ?_⟩
    obtain ⟨S'', g1, _, g3, _⟩ := C24_run_once (v := v) hv (.new h1) hf ds
    rw [h2] at g1
    rw [← g3, ← Except.ok.inj g1]; exact h3

/-- C57: with shuffling on, `reset` of the plain classes reaches every order of the (distinct) site ids for exactly one vector of random
numbers, whatever happened before. -/
theorem C57_reset (h : Reach env v L S) (hv : v.plain = true) (hd : S.doShuffle = true) (hn : S.siteIds.Nodup) {p : List Nat}
    (hp : p.Perm S.siteIds) : ∃! x : DrawVec S.siteIds.length, ∃ S', S.reset env v x.draws = .ok S' ∧ S'.siteIds = p := by
  obtain ⟨_, A, M, hA⟩ := h.sim
  have hlt : ∀ k ∈ S.siteIds, k < S.revIds.length := by intro k hk; rw [h.ids.2]; exact h.ids.1 k hk
  have hres : ∀ draws, ∃ S', S.reset env v draws = .ok S' ∧ S'.siteIds = pyShuffle draws S.siteIds := by
    intro draws
    obtain ⟨rev, e', _⟩ := resetBase_default M.lat hd hlt draws
    simp only [Perc.reset]
    rw [e']
    cases v with
    | l0 => exact ⟨_, rfl, rfl⟩
    | sp => exact ⟨_, rfl, rfl⟩
    | l1 => cases hv
    | l2 => cases hv
  obtain ⟨x, hx⟩ := pyShuffle_vec_surj hp
  obtain ⟨S', h1, h2⟩ := hres x.draws
  refine ⟨x, ⟨S', h1, h2.trans hx⟩, ?_⟩
  rintro y ⟨S2, g1, g2⟩
  obtain ⟨S3, k1, k2⟩ := hres y.draws
  rw [g1] at k1
  rw [← Except.ok.inj k1, g2] at k2
  exact pyShuffle_inj hn rfl (k2.symm.trans hx.symm)

/-- The random numbers of the constructor after which `n` calls of `place_one_site` occupy exactly the sites in `T`. -/
def configDraws (env : Env α) (v : Variant) (L n : Nat) (ds : Nat → Draw) (T : Finset Nat) : Type :=
  {x : DrawVec (L * L) // ∃ S S' bs, Perc.new env L x.draws = .ok S ∧ placeN env v n ds S = .ok (S', bs) ∧ ∀ s, S'.Occ s ↔ s ∈ T}

theorem configDraws_card (hL : 0 < L) (hv : v.plain = true) (n : Nat) (ds : Nat → Draw) (T : Finset Nat) :
    Nat.card (configDraws env v L n ds T) =
    Nat.card {x : DrawVec (L * L) // ∀ s, s ∈ (pyShuffle x.draws (List.range (L * L))).take n ↔ s ∈ T} := by
  refine Nat.card_congr (Equiv.subtypeEquivRight fun x => ?_)
  obtain ⟨rev, e, _⟩ := new_ok env hL x.draws
  obtain ⟨_, S', h1, _, h2, _⟩ := C24_calls (v := v) hv (.new e) n ds
  constructor
  · rintro ⟨S, S2, bs, g1, g2, g3⟩ s
    rw [e] at g1
    rw [← Except.ok.inj g1, h1] at g2
    have : S' = S2 := congrArg Prod.fst (Except.ok.inj g2)
    rw [← g3, ← this, h2]
  · intro h
    exact ⟨_, S', _, e, h1, fun s => (h2 s).trans (h s)⟩

/-- C57: in the plain classes all configurations with the same number of occupied sites are equally likely: whatever `n`, the number of
vectors of random numbers after which the `n`-th call leaves exactly `T` occupied is the same for all sets `T` of a given size. -/
theorem C57_configurations (hL : 0 < L) (hv : v.plain = true) (n : Nat) (ds : Nat → Draw) {T T' : Finset Nat}
    (hT : T ⊆ Finset.range (L * L)) (hT' : T' ⊆ Finset.range (L * L)) (hc : T.card = T'.card) :
    Nat.card (configDraws env v L n ds T) = Nat.card (configDraws env v L n ds T') := by
  rw [configDraws_card hL hv, configDraws_card hL hv]
  exact le_antisymm (card_orders_le hT hT' hc) (card_orders_le hT' hT hc.symm)

/-- C57: and the number is not zero when `T` has `n` elements: every set of `n` sites can be the occupied one. -/
theorem C57_every_configuration (hL : 0 < L) (hv : v.plain = true) {n : Nat} (ds : Nat → Draw) {T : Finset Nat}
    (hT : T ⊆ Finset.range (L * L)) (hc : T.card = n) : 0 < Nat.card (configDraws env v L n ds T) := by
  rw [configDraws_card hL hv]
  have hlen : (List.range (L * L)).length = L * L := List.length_range
  have hp : (T.toList ++ (Finset.range (L * L) \ T).toList).Perm (List.range (L * L)) := by
    refine (List.perm_ext_iff_of_nodup ?_ List.nodup_range).2 fun a => ?_
    · rw [List.nodup_append]
      refine ⟨T.nodup_toList, Finset.nodup_toList _, fun a ha b hb => ?_⟩
      rw [Finset.mem_toList] at ha hb
      rintro rfl
      exact (Finset.mem_sdiff.1 hb).2 ha
    · rw [List.mem_append, Finset.mem_toList, Finset.mem_toList, Finset.mem_sdiff, List.mem_range, ← Finset.mem_range]
      constructor
      · rintro (h | h)
        · exact hT h
        · exact h.1
      · intro h
        by_cases ha : a ∈ T
        · exact Or.inl ha
        · exact Or.inr ⟨h, ha⟩
  have hsurj := pyShuffle_vec_surj hp
  rw [hlen] at hsurj
  obtain ⟨x, hx⟩ := hsurj
  have : Nonempty {x : DrawVec (L * L) // ∀ s, s ∈ (pyShuffle x.draws (List.range (L * L))).take n ↔ s ∈ T} := by
    refine ⟨⟨x, fun s => ?_⟩⟩
    rw [hx, List.take_left' (by rw [Finset.length_toList, hc]), Finset.mem_toList]
  exact Nat.card_pos

/-- Three elements: the six vectors of random numbers give the six orders. -/
example : (List.range 2).flatMap (fun a => (List.range 3).map fun b => pyShuffle (fun i => if i = 1 then a else b) [0, 1, 2]) =
    [[1, 2, 0], [2, 0, 1], [1, 0, 2], [2, 1, 0], [0, 2, 1], [0, 1, 2]] := by decide

/-- Two opposite sites of a 2 by 2 lattice are as likely as two neighbouring ones. -/
example : Nat.card (configDraws demoEnv .l0 2 2 (fun _ => ⟨0, 0⟩) {0, 3}) = Nat.card (configDraws demoEnv .l0 2 2 (fun _ => ⟨0, 0⟩) {0, 1}) ∧
    0 < Nat.card (configDraws demoEnv .l0 2 2 (fun _ => ⟨0, 0⟩) {0, 3}) :=
  ⟨C57_configurations (by decide) rfl _ _ (by decide) (by decide) rfl, C57_every_configuration (by decide) rfl _ (by decide) rfl⟩

end SqPerc
