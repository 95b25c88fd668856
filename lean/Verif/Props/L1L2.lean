import Verif.Proof.Rules
import Verif.Props.Sequence
import Verif.Props.Runs
import Verif.Props.Lists
/-
Properties C33–C38: the classes L1 and L2.
-/
namespace SqPerc

variable {α : Type} {L : Nat} {env : Env α} {v : Variant} {S S' S1 S2 : Perc α} {seq : List Nat} {d : Draw} {b : Bool}

/-! ### C33 -/

/-- C33: in the default mode, after any number of calls, runs and resets, `place_one_site` of L1 never raises; if it places a site, that
site was empty before, and nothing else changes. -/
theorem C33_never_raises (h : DefReach env .l1 L S) (d : Draw) : ∃ S' b, S.placeOneSite env .l1 d = .ok (S', b) ∧
    (S'.selectionFlag = some .success → ∃ k, S'.selected = some k ∧ k < L * L ∧ ¬ S.Occ k ∧ ∀ s, S'.Occ s ↔ S.Occ s ∨ s = k) ∧
    (S'.selectionFlag ≠ some .success → ∀ s, S'.Occ s ↔ S.Occ s) := by
  obtain ⟨S', b, e, _⟩ := h.live.place d
  obtain ⟨A, M, hA⟩ := h.live.sim
  refine ⟨S', b, e, ?_, ?_⟩
  · intro hf
    rcases placeOneSite_occ M hA.inv e with ⟨_, _, k, h1, h2, h3, h4, _⟩ | h'
    · exact ⟨k, h1, h2, h3, h4⟩
    · exact absurd hf h'.1
  · intro hf
    rcases placeOneSite_occ M hA.inv e with h' | h'
    · exact absurd h'.1 hf
    · exact h'.2.1

/-- C33: every empty site is among the candidates `site_ids_indices[current_idx:]`, which are pairwise distinct sites. -/
theorem C33_pool (h : DefReach env .l1 L S) : (S.siteIds.drop S.currentIdx).Nodup ∧ (∀ s ∈ S.siteIds.drop S.currentIdx, s < L * L) ∧
    ∀ s < L * L, ¬ S.Occ s → s ∈ S.siteIds.drop S.currentIdx :=
  have W : Window L S S.cnt1 := h.live.sel
  ⟨W.nd, fun s hs => W.lt s (List.mem_of_mem_drop hs), W.un⟩

theorem defReach_ops : ∀ {ops : List Op} {S S' : Perc α}, DefReach env v L S → (∀ op ∈ ops, op.isDefault = true) →
    runOps env v ops S = .ok S' → DefReach env v L S' := by
  intro ops
  induction ops with
  | nil => intro S S' h _ e; rw [← Except.ok.inj e]; exact h
  | cons op ops ih =>
    intro S S' h ho e
    simp only [runOps] at e
    cases hs : SqPerc.step env v S op with
    | error x => rw [hs] at e; cases e
    | ok S1 =>
      rw [hs] at e
      exact ih (.step op (ho op (by simp)) h hs) (fun op h => ho op (by simp [h])) e

theorem checkOps_def {ops : List Op} {p : Perc α → Bool} (ho : ∀ op ∈ ops, op.isDefault = true)
    (h : checkOps env v L ops p = true) : ∃ S, DefReach env v L S ∧ p S = true := by
  unfold checkOps at h
  cases hn : Perc.new env L (fun _ => 0) with
  | error e => rw [hn] at h; cases h
  | ok S0 =>
    rw [hn] at h
    replace h : (match runOps env v ops S0 with | .ok S => p S | .error _ => false) = true := h
    cases hr : runOps env v ops S0 with
    | error e => rw [hr] at h; cases h
    | ok S => rw [hr] at h; exact ⟨S, defReach_ops (.new hn) ho hr, h⟩

/-- Non-trivial case: on a lattice of length 2, six calls that always draw the first candidate and the first direction: two sites are
placed, four calls are rejected, and then the first candidate is dropped. -/
example : ∃ S, DefReach demoEnv .l1 2 S ∧ S.occupiedCount = 2 ∧ S.currentIdx = 1 ∧ S.xOccupied = 5 := by
  obtain ⟨S, h, hp⟩ := checkOps_def (env := demoEnv) (v := .l1) (L := 2) (ops := List.replicate 6 .place0)
    (p := fun S => decide (S.occupiedCount = 2 ∧ S.currentIdx = 1 ∧ S.xOccupied = 5)) (by simp [Op.isDefault]) (by decide +kernel)
  exact ⟨S, h, by simpa using hp⟩

/-! ### C34 and C35 -/

/-- `n` calls of `place_one_site`; for each call the value returned and the site placed by it, if any. -/
def callLog (env : Env α) (v : Variant) : Nat → (Nat → Draw) → Perc α → Py (Perc α × List (Bool × Option Nat))
  | 0, _, S => .ok (S, [])
  | n + 1, ds, S => do
    let (S, b) ← S.placeOneSite env v (ds 0)
    let (S', log) ← callLog env v n (fun i => ds (i + 1)) S
    return (S', (b, if S.selectionFlag = some .success then S.selected else none) :: log)

/-- The sites placed by the logged calls, in order. -/
def placedBy (log : List (Bool × Option Nat)) : List Nat := log.filterMap Prod.snd

theorem Live.full_of_budget (H : Live env v L S) (h : S.budget L v = 0) : ∀ s < L * L, S.Occ s := by
  obtain ⟨S', b, _, _, ht, hf⟩ := H.place ⟨0, 0⟩
  cases b with
  | true => have := (ht rfl).1; omega
  | false => exact (hf rfl).2.2

theorem budget_aux1 {x y : Int} (n : Nat) (_ : 0 < x) (h2 : y + 1 = x) : max 0 (y - n) = max 0 (x - (n + 1 : Nat)) := by
  subst h2; push_cast; congr 1; ring

theorem budget_aux2 {x y : Int} (n : Nat) (h1 : x = 0) (h2 : y = 0) : max 0 (y - n) = max 0 (x - (n + 1 : Nat)) := by
  omega

theorem Live.callLog (n : Nat) : ∀ {S : Perc α} (ds : Nat → Draw), Live env v L S → ∃ S' log, SqPerc.callLog env v n ds S = .ok (S', log) ∧
    log.map Prod.fst = (List.range n).map (fun i : Nat => decide ((i : Int) < S.budget L v)) ∧ Live env v L S' ∧
    S'.budget L v = max 0 (S.budget L v - n) ∧ (∀ s, S'.Occ s ↔ S.Occ s ∨ s ∈ placedBy log) ∧ (placedBy log).Nodup ∧
    (∀ s ∈ placedBy log, ¬ S.Occ s ∧ s < L * L) := by
  induction n with
  | zero =>
    intro S ds H
    refine ⟨S, [], rfl, rfl, H, ?_, by simp [placedBy], by simp [placedBy], by simp [placedBy]⟩
    have := H.nonneg; simp; omega
  | succ n ih =>
    intro S ds H
    obtain ⟨S1, b, p1, H1, ht, hf⟩ := H.place (ds 0)
    obtain ⟨S', log, q1, q2, H', hb, ho, hnd, hnew⟩ := ih (fun i => ds (i + 1)) H1
    obtain ⟨A, M, hA⟩ := H.sim
    have hnn := H1.nonneg
    have hocc := placeOneSite_occ M hA.inv p1
    refine ⟨S', (b, if S1.selectionFlag = some .success then S1.selected else none) :: log, ?_, ?_, H', ?_, ?_⟩
    · simp only [SqPerc.callLog]
      rw [p1]
      show (SqPerc.callLog env v n (fun i => ds (i + 1)) S1 >>= _) = _
      rw [q1]; rfl
    · rw [List.map_cons, q2, List.range_succ_eq_map, List.map_cons, List.map_map]
      have tail : (List.range n).map (fun i : Nat => decide ((i : Int) < S1.budget L v)) =
          (List.range n).map ((fun i : Nat => decide ((i : Int) < S.budget L v)) ∘ Nat.succ) := by
        apply List.map_congr_left
        intro i _
        show decide ((i : Int) < S1.budget L v) = decide (((i + 1 : Nat) : Int) < S.budget L v)
        congr 1
        apply propext
        cases b with
        | true => obtain ⟨c1, c2⟩ := ht rfl; push_cast; omega
        | false => obtain ⟨c1, c2, _⟩ := hf rfl; push_cast; omega
      rw [tail]
      congr 1
      cases b with
      | true => have := (ht rfl).1; simpa using this
      | false => have := (hf rfl).1; simpa using this.le
    · rw [hb]
      cases b with
      | true => obtain ⟨c1, c2⟩ := ht rfl; exact budget_aux1 n c1 c2
      | false => obtain ⟨c1, c2, _⟩ := hf rfl; exact budget_aux2 n c1 c2
    · rcases hocc with ⟨h1, _, k, h2, h3, h4, h5, _⟩ | ⟨h1, h2, _⟩
      · have e : placedBy ((b, if S1.selectionFlag = some .success then S1.selected else none) :: log) = k :: placedBy log := by
          simp [placedBy, h1, h2]
        rw [e]
        refine ⟨?_, ?_, ?_⟩
        · intro s; rw [ho, h5, List.mem_cons, or_assoc]
        · rw [List.nodup_cons]
          exact ⟨fun hk => (hnew k hk).1 ((h5 k).2 (Or.inr rfl)), hnd⟩
        · intro s hs
          rcases List.mem_cons.1 hs with rfl | hs
          · exact ⟨h4, h3⟩
          · exact ⟨fun h => (hnew s hs).1 ((h5 s).2 (Or.inl h)), (hnew s hs).2⟩
      · have e : placedBy ((b, if S1.selectionFlag = some .success then S1.selected else none) :: log) = placedBy log := by
          simp [placedBy, h1]
        rw [e]
        refine ⟨fun s => by rw [ho, h2], hnd, fun s hs => ⟨fun h => (hnew s hs).1 ((h2 s).2 h), (hnew s hs).2⟩⟩

theorem Fresh.callLog (h : Fresh env v L S) (n : Nat) (ds : Nat → Draw) : ∃ S' log, SqPerc.callLog env v n ds S = .ok (S', log) ∧
    log.map Prod.fst = (List.range n).map (fun i : Nat => decide ((i : Int) < initBudget L v)) ∧
    (∀ s, S'.Occ s ↔ s ∈ placedBy log) ∧ (placedBy log).Nodup ∧ (∀ s ∈ placedBy log, s < L * L) ∧
    (initBudget L v ≤ n → (placedBy log).Perm (List.range (L * L))) := by
  obtain ⟨H, hb, _, h0⟩ := h.live
  obtain ⟨S', log, e, h1, H', h2, h3, h4, h5⟩ := H.callLog n ds
  rw [hb] at h1 h2
  have hocc : ∀ s, S'.Occ s ↔ s ∈ placedBy log := fun s => by rw [h3]; exact ⟨fun h => h.resolve_left (h0 s), Or.inr⟩
  refine ⟨S', log, e, h1, hocc, h4, fun s hs => (h5 s hs).2, fun hn => ?_⟩
  have hfull := H'.full_of_budget (by rw [h2]; omega)
  refine (List.perm_ext_iff_of_nodup h4 List.nodup_range).2 fun s => ?_
  rw [List.mem_range]
  exact ⟨fun hs => (h5 s hs).2, fun hs => (hocc s).1 (hfull s hs)⟩

/-- C34: on a new or reset L1 object (default mode), whatever the random draws, any number `n` of calls of `place_one_site` goes through
without exception; the `i`-th call returns True exactly for `i < 5 L²`; no site is placed twice; and the first `5 L²` calls place each
of the `L²` sites exactly once (so exactly `L²` of them place a site). -/
theorem C34_calls (h : Fresh env .l1 L S) (n : Nat) (ds : Nat → Draw) : ∃ S' log, callLog env .l1 n ds S = .ok (S', log) ∧
    log.map Prod.fst = (List.range n).map (fun i => decide (i < 5 * (L * L))) ∧
    (∀ s, S'.Occ s ↔ s ∈ placedBy log) ∧ (placedBy log).Nodup ∧
    (5 * (L * L) ≤ n → (placedBy log).Perm (List.range (L * L)) ∧ ∀ s < L * L, S'.Occ s) := by
  obtain ⟨S', log, e, h1, h2, h3, _, h5⟩ := h.callLog n ds
  refine ⟨S', log, e, ?_, h2, h3, fun hn => ?_⟩
  · rw [h1]
    apply List.map_congr_left
    intro i _
    congr 1
    apply propext
    show (i : Int) < 5 * (L * L) ↔ _
    exact_mod_cast Iff.rfl
  · have hp := h5 (show (5 * (L * L) : Int) ≤ n by exact_mod_cast hn)
    exact ⟨hp, fun s hs => (h2 s).2 (hp.mem_iff.2 (List.mem_range.2 hs))⟩

/-- C34: `run_once` of L1 on such an object ends without exception and places every site exactly once. -/
theorem C34_run_once (h : Fresh env .l1 L S) {fuel : Nat} (hf : 5 * (L * L) < fuel) (ds : Nat → Draw) :
    ∃ S' seq, S.runOnce env .l1 fuel ds = .ok S' ∧ Trace env .l1 L S' seq ∧ seq.Perm (List.range (L * L)) ∧ ∀ s < L * L, S'.Occ s := by
  obtain ⟨S', seq, e, T, hp, ho, _⟩ := h.run (ds := ds) (show (5 * (L * L) : Int) < fuel by exact_mod_cast hf)
  exact ⟨S', seq, e, T, hp, ho⟩

/-- Non-trivial case: new L1 objects exist for every `L ≥ 1`; the 20 calls for L = 2 with draws 0 place 4 sites. -/
example : ∃ S S' log, Fresh demoEnv .l1 2 S ∧ callLog demoEnv .l1 20 (fun i => ⟨i, i⟩) S = .ok (S', log) ∧ (placedBy log).length = 4 := by
  obtain ⟨S, _, h⟩ := fresh_exists demoEnv .l1 (L := 2) (by decide) (fun _ => 0)
  obtain ⟨S', log, e, _, _, _, h5⟩ := C34_calls h 20 (fun i => ⟨i, i⟩)
  exact ⟨S, S', log, h, e, by rw [(h5 (by decide)).1.length_eq]; rfl⟩

/-- C35: in the default mode, after any number of calls, runs and resets, `place_one_site` of L2 never raises; if it places a site, that
site was empty before, and nothing else changes. -/
theorem C35_never_raises (h : DefReach env .l2 L S) (d : Draw) : ∃ S' b, S.placeOneSite env .l2 d = .ok (S', b) ∧
    (S'.selectionFlag = some .success → ∃ k, S'.selected = some k ∧ k < L * L ∧ ¬ S.Occ k ∧ ∀ s, S'.Occ s ↔ S.Occ s ∨ s = k) ∧
    (S'.selectionFlag ≠ some .success → ∀ s, S'.Occ s ↔ S.Occ s) := by
  obtain ⟨S', b, e, _⟩ := h.live.place d
  obtain ⟨A, M, hA⟩ := h.live.sim
  refine ⟨S', b, e, ?_, ?_⟩
  · intro hf
    rcases placeOneSite_occ M hA.inv e with ⟨_, _, k, h1, h2, h3, h4, _⟩ | h'
    · exact ⟨k, h1, h2, h3, h4⟩
    · exact absurd hf h'.1
  · intro hf
    rcases placeOneSite_occ M hA.inv e with h' | h'
    · exact absurd h'.1 hf
    · exact h'.2.1

/-- C35: every empty site is among the candidates. -/
theorem C35_pool (h : DefReach env .l2 L S) : (S.siteIds.drop S.currentIdx).Nodup ∧ (∀ s ∈ S.siteIds.drop S.currentIdx, s < L * L) ∧
    ∀ s < L * L, ¬ S.Occ s → s ∈ S.siteIds.drop S.currentIdx :=
  have W : Window L S S.cnt2 := h.live.sel.1
  ⟨W.nd, fun s hs => W.lt s (List.mem_of_mem_drop hs), W.un⟩

/-- C35: on a new or reset L2 object (default mode), whatever the random draws, the `i`-th call of `place_one_site` returns True exactly
for `i < 5 L²`; the first `5 L²` calls place each site exactly once. -/
theorem C35_calls (h : Fresh env .l2 L S) (n : Nat) (ds : Nat → Draw) : ∃ S' log, callLog env .l2 n ds S = .ok (S', log) ∧
    log.map Prod.fst = (List.range n).map (fun i => decide (i < 5 * (L * L))) ∧
    (∀ s, S'.Occ s ↔ s ∈ placedBy log) ∧ (placedBy log).Nodup ∧
    (5 * (L * L) ≤ n → (placedBy log).Perm (List.range (L * L)) ∧ ∀ s < L * L, S'.Occ s) := by
  obtain ⟨S', log, e, h1, h2, h3, _, h5⟩ := h.callLog n ds
  refine ⟨S', log, e, ?_, h2, h3, fun hn => ?_⟩
  · rw [h1]
    apply List.map_congr_left
    intro i _
    congr 1
    apply propext
    show (i : Int) < 5 * (L * L) ↔ _
    exact_mod_cast Iff.rfl
  · have hp := h5 (show (5 * (L * L) : Int) ≤ n by exact_mod_cast hn)
    exact ⟨hp, fun s hs => (h2 s).2 (hp.mem_iff.2 (List.mem_range.2 hs))⟩

/-- C35: `run_once` of L2 on such an object ends without exception and places every site exactly once. -/
theorem C35_run_once (h : Fresh env .l2 L S) {fuel : Nat} (hf : 5 * (L * L) < fuel) (ds : Nat → Draw) :
    ∃ S' seq, S.runOnce env .l2 fuel ds = .ok S' ∧ Trace env .l2 L S' seq ∧ seq.Perm (List.range (L * L)) ∧ ∀ s < L * L, S'.Occ s := by
  obtain ⟨S', seq, e, T, hp, ho, _⟩ := h.run (ds := ds) (show (5 * (L * L) : Int) < fuel by exact_mod_cast hf)
  exact ⟨S', seq, e, T, hp, ho⟩

/-- Non-trivial case. -/
example : ∃ S, DefReach demoEnv .l2 3 S ∧ S.occupiedCount = 3 ∧ S.currentIdx = 1 ∧ S.yOccupied = 4 := by
  obtain ⟨S, h, hp⟩ := checkOps_def (env := demoEnv) (v := .l2) (L := 3) (ops := List.replicate 7 .place0)
    (p := fun S => decide (S.occupiedCount = 3 ∧ S.currentIdx = 1 ∧ S.yOccupied = 4)) (by simp [Op.isDefault]) (by decide +kernel)
  exact ⟨S, h, by simpa using hp⟩

/-! ### C36 -/

/-- C36: what a call of `place_one_site` of L1 does.  If candidates are left, one of them, `x`, is drawn.  If `x` is empty it is placed.  If
it is occupied, `x_occupied` is increased, and one of the four neighbours of `x` is placed if it is empty; otherwise nothing is placed. -/
theorem C36_rule (h : Reach env .l1 L S) (hp : S.placeOneSite env .l1 d = .ok (S', b)) :
    (L * L ≤ S.currentIdx ∧ S'.selectionFlag = some .emptySiteList ∧ b = false ∧ S'.xOccupied = S.xOccupied) ∨
    ∃ x ∈ S.siteIds.drop S.currentIdx, S.drawn d = some x ∧
      (¬ S.Occ x ∧ S'.selectionFlag = some .success ∧ S'.selected = some x ∧ S'.xOccupied = S.xOccupied ∨
       S.Occ x ∧ S'.xOccupied = S.xOccupied + 1 ∧ ∃ dir : Dir,
        (¬ S.Occ (nbr L x dir) ∧ S'.selectionFlag = some .success ∧ S'.selected = some (nbr L x dir) ∨
         S.Occ (nbr L x dir) ∧ S'.selectionFlag = some .currentSiteNotEmpty ∧ ∀ s, S'.Occ s ↔ S.Occ s)) := by
  obtain ⟨_, A, M, hA⟩ := h.sim
  rcases l1_rule M hA.inv hp with ⟨h1, h2, h3, _, h4, _⟩ | ⟨_, x, hx, _, hc⟩
  · exact Or.inl ⟨h1, h2, h3, h4⟩
  · refine Or.inr ⟨x, List.mem_of_getElem? hx, hx, ?_⟩
    rcases hc with ⟨a1, a2, a3, a4, _⟩ | ⟨a1, a2, a3, a4, a5, _⟩ | ⟨a1, a2, a3, _, a5, _⟩
    · exact Or.inl ⟨a1, a2, a3, a4⟩
    · exact Or.inr ⟨a1, a5, _, Or.inl ⟨a2, a3, a4⟩⟩
    · refine Or.inr ⟨a1, a5, _, Or.inr ⟨a2, a3, ?_⟩⟩
      rcases placeOneSite_occ M hA.inv hp with h' | h'
      · rw [a3] at h'; cases h'.1
      · exact h'.2.1

/-- C36: every candidate and every direction can be drawn: for each candidate `x` and each direction there are random numbers with which
the call places `x` if `x` is empty, and the neighbour in that direction if `x` is occupied and the neighbour is not. -/
theorem C36_every_choice (h : DefReach env .l1 L S) {x : Nat} (hx : x ∈ S.siteIds.drop S.currentIdx) (dir : Dir) :
    ∃ d S' b, S.placeOneSite env .l1 d = .ok (S', b) ∧ (¬ S.Occ x → S'.selected = some x) ∧
      (S.Occ x → ¬ S.Occ (nbr L x dir) → S'.selected = some (nbr L x dir)) ∧
      (S.Occ x → S.Occ (nbr L x dir) → S'.selectionFlag = some .currentSiteNotEmpty) := by
  obtain ⟨i, hi, hxi⟩ := List.getElem_of_mem hx
  rw [List.length_drop] at hi
  obtain ⟨n, hn⟩ : ∃ n, dirOf n = dir := by
    cases dir
    · exact ⟨0, rfl⟩
    · exact ⟨1, rfl⟩
    · exact ⟨2, rfl⟩
    · exact ⟨3, rfl⟩
  have hd : S.drawn ⟨i, n⟩ = some x := by
    unfold Perc.drawn
    rw [show (Draw.mk i n).a = i from rfl, Nat.mod_eq_of_lt hi, ← hxi]
    exact List.getElem?_eq_getElem _
  obtain ⟨S', b, e, _⟩ := h.live.place ⟨i, n⟩
  refine ⟨⟨i, n⟩, S', b, e, ?_⟩
  have hlen := h.live.len
  obtain ⟨A, M, hA⟩ := h.live.sim
  rcases l1_rule M hA.inv e with ⟨h1, _⟩ | ⟨_, x', hx', _, hc⟩
  · omega
  · have hxx := hd.symm.trans hx'
    cases hxx
    rw [show dirOf (Draw.mk i n).b = dir from hn] at hc
    rcases hc with ⟨a1, a2, a3, _⟩ | ⟨a1, a2, a3, a4, _⟩ | ⟨a1, a2, a3, _⟩
    · exact ⟨fun _ => a3, fun h => absurd h a1, fun h => absurd h a1⟩
    · exact ⟨fun h => absurd a1 h, fun _ _ => a4, fun _ h => absurd h a2⟩
    · exact ⟨fun h => absurd a1 h, fun _ h => absurd a2 h, fun _ _ => a3⟩

/-- The next call of `place_one_site` draws an occupied candidate. -/
def Perc.Hits (L : Nat) (S : Perc α) (d : Draw) : Prop := S.currentIdx < L * L ∧ ∃ x, S.drawn d = some x ∧ S.Occ x

open Classical in
/-- `n` calls of `place_one_site`, counting the ones that draw an occupied candidate. -/
noncomputable def countHits (env : Env α) (v : Variant) (L : Nat) : Nat → (Nat → Draw) → Perc α → Py (Perc α × Nat)
  | 0, _, S => .ok (S, 0)
  | n + 1, ds, S => do
    let (S', _) ← S.placeOneSite env v (ds 0)
    let (S'', m) ← countHits env v L n (fun i => ds (i + 1)) S'
    return (S'', m + if S.Hits L (ds 0) then 1 else 0)

/-- C36: `x_occupied` counts exactly the draws that hit an occupied site (whether or not the neighbour is then placed). -/
theorem C36_x_occupied (n : Nat) : ∀ {S S' : Perc α} {ds : Nat → Draw} {m : Nat}, Reach env .l1 L S → countHits env .l1 L n ds S = .ok (S', m) →
    S'.xOccupied = S.xOccupied + m := by
  induction n with
  | zero => intro S S' ds m _ e; obtain ⟨rfl, rfl⟩ := Prod.mk.inj (Except.ok.inj e); rfl
  | succ n ih =>
    intro S S' ds m h e
    simp only [countHits] at e
    cases hp : S.placeOneSite env .l1 (ds 0) with
    | error x => rw [hp] at e; cases e
    | ok r =>
      obtain ⟨S1, b⟩ := r
      rw [hp] at e
      replace e : (countHits env .l1 L n (fun i => ds (i + 1)) S1 >>= _) = _ := e
      cases hq : countHits env .l1 L n (fun i => ds (i + 1)) S1 with
      | error x => rw [hq] at e; cases e
      | ok r =>
        obtain ⟨S2, m'⟩ := r
        rw [hq] at e
        obtain ⟨rfl, rfl⟩ := Prod.mk.inj (Except.ok.inj e)
        have := ih (Reach.step (.place (ds 0)) h (by simp only [step]; rw [hp]; rfl)) hq
        rw [this]
        obtain ⟨_, A, M, hA⟩ := h.sim
        rcases l1_rule M hA.inv hp with ⟨h1, _, _, _, h4, _⟩ | ⟨h1, x, hx, _, hc⟩
        · rw [if_neg (fun h => by have := h.1; omega), h4]; omega
        · rcases hc with ⟨a1, _, _, a4, _⟩ | ⟨a1, _, _, _, a5, _⟩ | ⟨a1, _, _, _, a5, _⟩
          · rw [if_neg (by rintro ⟨_, y, hy, hy2⟩; rw [hx] at hy; cases hy; exact a1 hy2), a4]; omega
          · rw [if_pos ⟨h1, x, hx, a1⟩, a5]; omega
          · rw [if_pos ⟨h1, x, hx, a1⟩, a5]; omega

/-- C36: the counter starts at 0 on a new object and after every reset. -/
theorem C36_x_occupied_start (h : Start env .l1 L S) : S.xOccupied = 0 := by
  cases h with
  | new hn => obtain ⟨_, rev, rfl, _⟩ := new_inv hn; rfl
  | reset h hr => exact (reset_counters h hr).1

/-- Non-trivial case: L = 3, candidate 0 is drawn three times with direction "right": 0 and 1 are placed, the third call places nothing, and
`x_occupied` is 2. -/
example : ∃ S : Perc Unit, Reach demoEnv .l1 3 S ∧ S.xOccupied = 2 ∧ S.seqRecord = [0, 1] ∧ S.selectionFlag = some .currentSiteNotEmpty := by
  obtain ⟨S, h, hp⟩ := checkOps_reach (env := demoEnv) (v := .l1) (L := 3) (ops := .setIds [0, 1, 2, 3, 4, 5, 6, 7, 8] false (fun _ => 0) :: List.replicate 3 .place0)
    (p := fun S => decide (S.xOccupied = 2 ∧ S.seqRecord = [0, 1] ∧ S.selectionFlag = some .currentSiteNotEmpty)) (by decide +kernel)
  exact ⟨S, h, by simpa using hp⟩

/-! ### C37 -/

/-- The step from site `x` in direction `dir` crosses the periodic boundary. -/
def Crosses (L x : Nat) : Dir → Prop
  | .right => x % L + 1 = L
  | .left => x % L = 0
  | .down => x / L + 1 = L
  | .up => x / L = 0

theorem correct_toNat {a b : Nat} (hL : 0 < L) (z : Idx) (h1 : z.c1 % L = a) (h2 : z.c2 % L = b) :
    ((Perc.correctPeriodicity L z).c1 * L + (Perc.correctPeriodicity L z).c2).toNat = a * L + b := by
  simp only [Perc.correctPeriodicity]
  rw [Int.fmod_eq_emod_of_nonneg _ (by omega), Int.fmod_eq_emod_of_nonneg _ (by omega), h1, h2]
  exact_mod_cast rfl

theorem fdiv_natAbs_pos {x : Int} (h : 0 < x) : Int.fdiv x x.natAbs = 1 := by
  rw [Int.fdiv_eq_ediv_of_nonneg _ (by omega), show (x.natAbs : Int) = x by omega]
  exact Int.ediv_self (by omega)

theorem fdiv_natAbs_neg {x : Int} (h : x < 0) : Int.fdiv x x.natAbs = -1 := by
  rw [Int.fdiv_eq_ediv_of_nonneg _ (by omega), show (x.natAbs : Int) = -x by omega, Int.ediv_neg, Int.ediv_self (by omega)]

theorem sidx_rc {r c : Nat} (hc : c < L) : sidx L (r * L + c) = ⟨r, c⟩ := by
  unfold sidx; rw [mul_add_div_L hc, mul_add_mod_L hc]

theorem zOf_row {r c c' : Nat} (hr : r < L) (hc : c < L) (hc' : c' < L) (hne : c ≠ c') :
    zOf L (r * L + c) (r * L + c') = r * L + if c < c' then (c' + 1) % L else (c' + (L - 1)) % L := by
  have hL : 0 < L := by omega
  unfold zOf
  rw [sidx_rc hc, sidx_rc hc']
  have hn : (Idx.sub ⟨(r : Int), c'⟩ ⟨(r : Int), c⟩).normalize = ⟨0, if c < c' then 1 else -1⟩ := by
    unfold Idx.normalize Idx.sub
    simp only
    rw [if_pos ⟨by omega, by omega⟩]
    split
    · rw [fdiv_natAbs_pos (by omega)]; simp
    · rw [fdiv_natAbs_neg (by omega)]; simp
  rw [hn]
  apply correct_toNat hL
  · show ((r : Int) + 0) % L = _
    rw [Int.add_zero]; exact Int.emod_eq_of_lt (by omega) (by omega)
  · show ((c' : Int) + if c < c' then 1 else -1) % L = _
    split
    · push_cast; rfl
    · rw [Int.natCast_mod, Int.natCast_add, Int.natCast_sub hL,
        show ((c' : Int) + ((L : Int) - ((1 : Nat) : Int))) = (c' + -1) + L by push_cast; omega, Int.add_emod_right]

theorem zOf_col {r r' c : Nat} (hr : r < L) (hr' : r' < L) (hc : c < L) (hne : r ≠ r') :
    zOf L (r * L + c) (r' * L + c) = (if r < r' then (r' + 1) % L else (r' + (L - 1)) % L) * L + c := by
  have hL : 0 < L := by omega
  unfold zOf
  rw [sidx_rc hc, sidx_rc hc]
  have hn : (Idx.sub ⟨(r' : Int), c⟩ ⟨(r : Int), c⟩).normalize = ⟨if r < r' then 1 else -1, 0⟩ := by
    unfold Idx.normalize Idx.sub
    simp only
    rw [if_neg (by omega), if_pos ⟨by omega, by omega⟩]
    split
    · rw [fdiv_natAbs_pos (by omega)]; simp
    · rw [fdiv_natAbs_neg (by omega)]; simp
  rw [hn]
  apply correct_toNat hL
  · show ((r' : Int) + if r < r' then 1 else -1) % L = _
    split
    · push_cast; rfl
    · rw [Int.natCast_mod, Int.natCast_add, Int.natCast_sub hL,
        show ((r' : Int) + ((L : Int) - ((1 : Nat) : Int))) = (r' + -1) + L by push_cast; omega, Int.add_emod_right]
  · show ((c : Int) + 0) % L = _
    rw [Int.add_zero]; exact Int.emod_eq_of_lt (by omega) (by omega)

theorem zOf_ahead {x : Nat} (hx : x < L * L) (dir : Dir) (h : ¬ Crosses L x dir) : zOf L x (nbr L x dir) = nbr L (nbr L x dir) dir := by
  obtain ⟨r, c, hr, hc, rfl⟩ := exists_rc hx
  cases dir <;> simp only [Crosses, mul_add_div_L hc, mul_add_mod_L hc] at h
  · rw [nbr_right_rc hc, nbr_right_rc (succ_mod_lt hc), zOf_row hr hc (succ_mod_lt hc) (by rw [succ_mod_cases hc, if_neg h]; omega),
      if_pos (by rw [succ_mod_cases hc, if_neg h]; omega)]
  · rw [nbr_down_rc hc, nbr_down_rc hc, zOf_col hr (succ_mod_lt hr) hc (by rw [succ_mod_cases hr, if_neg h]; omega),
      if_pos (by rw [succ_mod_cases hr, if_neg h]; omega)]
  · rw [nbr_left_rc hc, nbr_left_rc (pred_mod_lt hc), zOf_row hr hc (pred_mod_lt hc) (by rw [pred_mod_cases hc, if_neg h]; omega),
      if_neg (by rw [pred_mod_cases hc, if_neg h]; omega)]
  · rw [nbr_up_rc hc, nbr_up_rc hc, zOf_col hr (pred_mod_lt hr) hc (by rw [pred_mod_cases hr, if_neg h]; omega),
      if_neg (by rw [pred_mod_cases hr, if_neg h]; omega)]

theorem zOf_crossing (hL : 2 ≤ L) {x : Nat} (hx : x < L * L) (dir : Dir) (h : Crosses L x dir) : zOf L x (nbr L x dir) = x := by
  obtain ⟨r, c, hr, hc, rfl⟩ := exists_rc hx
  have h0 : 0 < L := by omega
  cases dir <;> simp only [Crosses, mul_add_div_L hc, mul_add_mod_L hc] at h
  · rw [nbr_right_rc hc, succ_mod_cases hc, if_pos h, zOf_row hr hc h0 (by omega), if_neg (by omega), pred_mod_cases h0, if_pos rfl]; omega
  · rw [nbr_down_rc hc, succ_mod_cases hr, if_pos h, zOf_col hr h0 hc (by omega), if_neg (by omega), pred_mod_cases h0, if_pos rfl]
    congr 2; omega
  · rw [nbr_left_rc hc, pred_mod_cases hc, if_pos h, zOf_row hr hc (by omega) (by omega), if_pos (by omega), succ_mod_cases (by omega),
      if_pos (by omega), h]
  · rw [nbr_up_rc hc, pred_mod_cases hr, if_pos h, zOf_col hr (by omega) hc (by omega), if_pos (by omega), succ_mod_cases (by omega),
      if_pos (by omega), h]

/-- Two steps in one direction do not lead back to the start if `L ≥ 3`. -/
theorem nbr_nbr_ne (hL : 3 ≤ L) {x : Nat} (hx : x < L * L) (dir : Dir) : nbr L (nbr L x dir) dir ≠ x := by
  obtain ⟨r, c, hr, hc, rfl⟩ := exists_rc hx
  intro h
  cases dir
  · rw [nbr_right_rc hc, nbr_right_rc (succ_mod_lt hc)] at h
    have := (rc_inj (succ_mod_lt (succ_mod_lt hc)) hc h).2
    rw [succ_mod_cases (succ_mod_lt hc), succ_mod_cases hc] at this
    split at this <;> split at this <;> omega
  · rw [nbr_down_rc hc, nbr_down_rc hc] at h
    have := (rc_inj hc hc h).1
    rw [succ_mod_cases (succ_mod_lt hr), succ_mod_cases hr] at this
    split at this <;> split at this <;> omega
  · rw [nbr_left_rc hc, nbr_left_rc (pred_mod_lt hc)] at h
    have := (rc_inj (pred_mod_lt (pred_mod_lt hc)) hc h).2
    rw [pred_mod_cases (pred_mod_lt hc), pred_mod_cases hc] at this
    split at this <;> split at this <;> omega
  · rw [nbr_up_rc hc, nbr_up_rc hc] at h
    have := (rc_inj hc hc h).1
    rw [pred_mod_cases (pred_mod_lt hr), pred_mod_cases hr] at this
    split at this <;> split at this <;> omega

/-- C37: what a call of `place_one_site` of L2 does.  The drawn candidate `x` is placed if it is empty, otherwise its drawn neighbour `y` if
that is empty.  If both are occupied and the step from `x` to `y` does not cross the periodic boundary, the site one step further in the same
direction is placed if it is empty; if it is occupied nothing is placed. -/
theorem C37_rule (h : Reach env .l2 L S) (hp : S.placeOneSite env .l2 d = .ok (S', b)) :
    (L * L ≤ S.currentIdx ∧ S'.selectionFlag = some .emptySiteList ∧ b = false) ∨
    ∃ x ∈ S.siteIds.drop S.currentIdx, S.drawn d = some x ∧
      (¬ S.Occ x ∧ S'.selectionFlag = some .success ∧ S'.selected = some x ∧ S'.xOccupied = S.xOccupied ∧ S'.yOccupied = S.yOccupied ∨
       S.Occ x ∧ S'.xOccupied = S.xOccupied + 1 ∧ ∃ dir : Dir,
        (¬ S.Occ (nbr L x dir) ∧ S'.selectionFlag = some .success ∧ S'.selected = some (nbr L x dir) ∧ S'.yOccupied = S.yOccupied ∨
         S.Occ (nbr L x dir) ∧
          (¬ Crosses L x dir → ¬ S.Occ (nbr L (nbr L x dir) dir) → S'.selectionFlag = some .success ∧
            S'.selected = some (nbr L (nbr L x dir) dir) ∧ S'.yOccupied = S.yOccupied) ∧
          (¬ Crosses L x dir → S.Occ (nbr L (nbr L x dir) dir) → S'.selectionFlag = some .currentSiteNotEmpty ∧
            S'.yOccupied = S.yOccupied + 1 ∧ ∀ s, S'.Occ s ↔ S.Occ s) ∧
          (Crosses L x dir → S'.selectionFlag = some .currentSiteNotEmpty ∧
            S'.yOccupied = S.yOccupied + 1 ∧ ∀ s, S'.Occ s ↔ S.Occ s))) := by
  obtain ⟨hL, A, M, hA⟩ := h.sim
  have same : S'.selectionFlag = some .currentSiteNotEmpty → ∀ s, S'.Occ s ↔ S.Occ s := by
    intro hf
    rcases placeOneSite_occ M hA.inv hp with h' | h'
    · rw [hf] at h'; cases h'.1
    · exact h'.2.1
  rcases l2_rule M hA.inv hp with ⟨h1, h2, h3, _⟩ | ⟨_, x, hx, hxl, hc⟩
  · exact Or.inl ⟨h1, h2, h3⟩
  · refine Or.inr ⟨x, List.mem_of_getElem? hx, hx, ?_⟩
    have hz : S.Occ x → S.Occ (nbr L x (dirOf d.b)) → Crosses L x (dirOf d.b) → S.Occ (zOf L x (nbr L x (dirOf d.b))) := by
      intro o1 o2 hcr
      by_cases h2 : 2 ≤ L
      · rw [zOf_crossing h2 hxl _ hcr]; exact o1
      · have : L = 1 := by omega
        subst this
        have := (siteBeyond_mk (V := A.V) hxl (nbr_lt hxl (dirOf d.b))).2
        have : zOf 1 x (nbr 1 x (dirOf d.b)) = x := by omega
        rw [this]; exact o1
    rcases hc with ⟨a1, a2, a3, a4, a5⟩ | ⟨a1, a2, a3, a4, a5, a6⟩ | ⟨a1, a2, a3, a4, a5, a6, a7⟩ | ⟨a1, a2, a3, a4, _, a6, a7⟩
    · exact Or.inl ⟨a1, a2, a3, a4, a5⟩
    · exact Or.inr ⟨a1, a5, _, Or.inl ⟨a2, a3, a4, a6⟩⟩
    · refine Or.inr ⟨a1, a6, dirOf d.b, Or.inr ⟨a2, ?_, ?_, ?_⟩⟩
      · intro hcr _; rw [zOf_ahead hxl _ hcr] at a5; exact ⟨a4, a5, a7⟩
      · intro hcr ho; rw [zOf_ahead hxl _ hcr] at a3; exact absurd ho a3
      · intro hcr; exact absurd (hz a1 a2 hcr) a3
    · refine Or.inr ⟨a1, a6, dirOf d.b, Or.inr ⟨a2, ?_, ?_, ?_⟩⟩
      · intro hcr ho; rw [zOf_ahead hxl _ hcr] at a3; exact absurd a3 ho
      · intro _ _; exact ⟨a4, a7, same a4⟩
      · intro _; exact ⟨a4, a7, same a4⟩

/-- C37: the claim fails at the boundary: for every `L ≥ 3` and every step that crosses the boundary, the site the code looks at is not the one
beyond `y` (it is `x` itself). -/
theorem C37_boundary_fails (hL : 3 ≤ L) {lat : Lattice} (h : LatticeOf L lat) {x : Nat} (hx : x < L * L) {dir : Dir} (hc : Crosses L x dir) :
    Perc.siteBeyond lat x (nbr L x dir) = .ok x ∧ nbr L (nbr L x dir) dir ≠ x := by
  refine ⟨?_, nbr_nbr_ne hL hx dir⟩
  obtain ⟨V, rfl⟩ := h.view
  rw [(siteBeyond_mk hx (nbr_lt hx dir)).1, zOf_crossing (by omega) hx dir hc]

/-- C37: away from the boundary it is. -/
theorem C37_straight_ahead {lat : Lattice} (h : LatticeOf L lat) {x : Nat} (hx : x < L * L) {dir : Dir} (hc : ¬ Crosses L x dir) :
    Perc.siteBeyond lat x (nbr L x dir) = .ok (nbr L (nbr L x dir) dir) := by
  obtain ⟨V, rfl⟩ := h.view
  rw [(siteBeyond_mk hx (nbr_lt hx dir)).1, zOf_ahead hx dir hc]

instance (S : Perc α) (s : Nat) : Decidable (S.Occ s) :=
  match h : S.lat.getSite s with
  | .ok st => if ho : st.isOccupied = true then .isTrue ⟨st, h, ho⟩ else .isFalse (by
      rintro ⟨st', h', ho'⟩
      rw [h] at h'
      cases h'
      exact ho ho')
  | .error e => .isFalse (by rintro ⟨st', h', _⟩; rw [h] at h'; cases h')

/-- Non-trivial cases for L = 3: candidate 0 is drawn with direction "right": 0, 1 and then 2 are placed.  Candidate 2 with the same
direction crosses the boundary: 2 and 0 are placed, but then nothing although 1 is empty. -/
example : (∃ S : Perc Unit, Reach demoEnv .l2 3 S ∧ S.Occ 0 ∧ S.Occ 1 ∧ S.Occ 2) ∧
    ∃ S : Perc Unit, Reach demoEnv .l2 3 S ∧ S.Occ 2 ∧ S.Occ 0 ∧ ¬ S.Occ 1 ∧ S.selectionFlag = some .currentSiteNotEmpty := by
  constructor
  · obtain ⟨S, h, hp⟩ := checkOps_reach (env := demoEnv) (v := .l2) (L := 3) (ops := .setIds [0, 4, 8] false (fun _ => 0) :: List.replicate 3 .place0)
      (p := fun S => decide (S.Occ 0 ∧ S.Occ 1 ∧ S.Occ 2)) (by decide +kernel)
    exact ⟨S, h, by simpa using hp⟩
  · obtain ⟨S, h, hp⟩ := checkOps_reach (env := demoEnv) (v := .l2) (L := 3) (ops := .setIds [2, 4, 8] false (fun _ => 0) :: List.replicate 3 .place0)
      (p := fun S => decide (S.Occ 2 ∧ S.Occ 0 ∧ ¬ S.Occ 1 ∧ S.selectionFlag = some .currentSiteNotEmpty)) (by decide +kernel)
    exact ⟨S, h, by simpa using hp⟩

/-! ### C38 -/

theorem setIds_seqRecord {ids : List Int} {draws : Nat → Nat} (h : S.setCustomIds ids b draws = .ok S') : S'.seqRecord = S.seqRecord := by
  simp only [Perc.setCustomIds] at h
  split at h
  · cases h
  · split at h
    · rw [← Except.ok.inj h]
    · obtain ⟨a, r, rfl⟩ := shuffle_ok h; rfl

theorem reset_seqRecord {draws : Nat → Nat} (hr : S.reset env .l1 draws = .ok S') : S'.seqRecord = [] := by
  have hr' : (S.resetBase draws >>= _) = _ := hr
  cases hb : S.resetBase draws with
  | error e => rw [hb] at hr'; cases hr'
  | ok S1 => rw [hb] at hr'; rw [← Except.ok.inj hr']

/-- In histories with detection after every placement the record is the placement sequence. -/
theorem Trace.seqRecord (T : Trace env .l1 L S seq) : S.seqRecord = seq := by
  induction T with
  | new h => obtain ⟨_, rev, rfl, _⟩ := new_inv h; rfl
  | placed T hp hf hk hd ih =>
    obtain ⟨A, M, hA⟩ := T.reachable
    obtain ⟨A1, hst, M1⟩ := placeOneSite_steps M hA.inv hp
    rw [(detectWrapping_keep M1 (hA.steps hst).inv hd).1.seqRecord]
    rcases l1_rule M hA.inv hp with ⟨_, h2, _⟩ | ⟨_, x, _, _, ⟨_, _, h3, _, h5⟩ | ⟨_, _, _, h4, _, h5⟩ | ⟨_, _, h3, _⟩⟩
    · rw [hf] at h2; cases h2
    · rw [hk] at h3; cases h3; rw [h5, ih]
    · rw [hk] at h4; cases h4; rw [h5, ih]
    · rw [hf] at h3; cases h3
  | skipped T hp hf ih =>
    obtain ⟨A, M, hA⟩ := T.reachable
    rcases l1_rule M hA.inv hp with ⟨_, _, _, _, _, h⟩ | ⟨_, x, _, _, ⟨_, h2, _⟩ | ⟨_, _, h3, _⟩ | ⟨_, _, _, _, _, h⟩⟩
    · rw [h, ih]
    · exact absurd h2 hf
    · exact absurd h3 hf
    · rw [h, ih]
  | detect T hd ih =>
    obtain ⟨A, M, hA⟩ := T.reachable
    rw [(detectWrapping_keep M hA.inv hd).1.seqRecord, ih]
  | start _ hr => exact reset_seqRecord hr
  | reset _ hr _ => exact reset_seqRecord hr
  | shuffle _ h ih => obtain ⟨a, r, rfl⟩ := shuffle_ok h; exact ih
  | setIds _ h ih => rw [setIds_seqRecord h, ih]
  | setIndices _ h ih => rw [C31_encodes] at h; rw [setIds_seqRecord h, ih]
  | swapIds _ h ih => obtain ⟨a, r, rfl⟩ := swapIds_ok h; exact ih
  | raised _ _ ih => exact ih
  | swapRaised _ h ih => obtain ⟨a, e⟩ := swapRaised_form _ _ _; rw [e]; exact ih
  | data _ _ _ _ _ _ _ ih => exact ih
  | write _ _ ih => exact ih

/-- The row and column of a site id. -/
def rowCol (L k : Nat) : Int × Int := ((k / L : Nat), (k % L : Nat))

theorem mapM_index {V : LV} (l : List Nat) (h : ∀ k ∈ l, k < L * L) :
    (l.mapM fun id => do
      let st ← (mkLat L V).getSite id
      return [st.index.c1, st.index.c2]) = (Except.ok ((l.map (rowCol L)).map fun p => [p.1, p.2]) : Py (List (List Int))) := by
  induction l with
  | nil => rfl
  | cons k l ih =>
    rw [List.mapM_cons, getSite_mk (h k (by simp))]
    show ((l.mapM fun id => (do
      let st ← (mkLat L V).getSite id
      return [st.index.c1, st.index.c2] : Py (List Int))) >>= _) = _
    rw [ih (fun k hk => h k (by simp [hk]))]
    rfl

theorem Trace.seq_lt (T : Trace env v L S seq) : ∀ k ∈ seq, k < L * L := by
  obtain ⟨A, M, _⟩ := T.reachable
  intro k hk
  exact ((M.occ_iff k).1 ((T.reports.occ k).2 hk)).1

theorem Trace.seq_nodup (T : Trace env v L S seq) : seq.Nodup := by
  obtain ⟨_, A, M, hA, I⟩ := T.sim
  exact I.nd

/-- C38: `get_index_sequence()` of L1 returns the (row, column) pairs of the placed sites in placement order, without repetition. -/
theorem C38_sequence (T : Trace env .l1 L S seq) :
    S.getIndexSequence .l1 = .ok ((seq.map (rowCol L)).map fun p => [p.1, p.2]) ∧ (seq.map (rowCol L)).Nodup ∧
    (∀ s, S.Occ s ↔ s ∈ seq) := by
  obtain ⟨A, M, hA⟩ := T.reachable
  refine ⟨?_, ?_, T.reports.occ⟩
  · simp only [Perc.getIndexSequence, T.seqRecord, M.lat]
    exact mapM_index seq T.seq_lt
  · refine List.Nodup.map_on ?_ T.seq_nodup
    intro a ha b hb e
    have e1 : ((a / L : Nat) : Int) = (b / L : Nat) := congrArg Prod.fst e
    have e2 : ((a % L : Nat) : Int) = (b % L : Nat) := congrArg Prod.snd e
    rw [← Nat.div_add_mod' a L, ← Nat.div_add_mod' b L]
    have e1 : a / L = b / L := by exact_mod_cast e1
    have e2 : a % L = b % L := by exact_mod_cast e2
    rw [e1, e2]

/-- Collected data of a first run, given by the placement sequence. -/
theorem Collected.data_array {so : SetOrder} {S S' : Perc ℝ} {pre seq : List Nat} (c : Collected (realEnv so) v L S S' pre seq)
    (e : S.firstRun = true ∧ S.occProbList = [] ∧ S.entropyList = [] ∧ S.orderWrapList = [] ∧ S.orderLargestList = []) :
    S'.getDataArray = .ok ((stages pre seq).map (dataRow so L)) := by
  obtain ⟨es, x1, _, x2⟩ := c.entropy
  have hes := x2 (fun q => shannon L (· ∈ q)) (fun T q h => h.entropy)
  obtain ⟨e1, e2, e3, e4, e5⟩ := e
  have c1 := c.occProb
  have c2 := c.ordWrap
  have c3 := c.ordLargest
  rw [if_pos e1, e2, List.nil_append] at c1
  rw [e3, List.nil_append, hes] at x1
  rw [e4, List.nil_append] at c2
  rw [e5, List.nil_append] at c3
  simp only [Perc.getDataArray, c1, x1, c2, c3]
  rw [if_pos (by simp)]
  congr 1
  generalize stages pre seq = l
  induction l with
  | nil => rfl
  | cons q l ih => simp only [List.map_cons, List.zip_cons_cons, ih]; rfl

theorem rowCol_encode (l : List Nat) : ((l.map (rowCol L)).map fun p => p.1 * (L : Int) + p.2) = l.map Int.ofNat := by
  rw [List.map_map]
  apply List.map_congr_left
  intro k _
  show ((k / L : Nat) : Int) * L + (k % L : Nat) = (k : Int)
  exact_mod_cast Nat.div_add_mod' k L

theorem map_toNat_ofNat (l : List Nat) : (l.map Int.ofNat).map Int.toNat = l := by
  rw [List.map_map]; exact List.map_id l

/-- C38: feeding the recorded sequence of a (non-empty) L1 history to an L0 object with nothing placed and running it succeeds, places the
same sites in the same order, and everything reported agrees. -/
theorem C38_replay {so so' : SetOrder} {ar : Arith α} (T : Trace ⟨so, ar⟩ .l1 L S seq) (hne : seq ≠ []) {N : Perc α}
    (hN : Start ⟨so', ar⟩ .l0 L N) {fuel : Nat} (hf : seq.length < fuel) (ds : Nat → Draw) (draws : Nat → Nat) :
    ∃ idxs N1 N', S.getIndexSequence .l1 = .ok idxs ∧ N.setCustomIndices idxs false draws = .ok N1 ∧
      N1.runOnce ⟨so', ar⟩ .l0 fuel ds = .ok N' ∧ Trace ⟨so', ar⟩ .l0 L N' seq ∧
      S.occupationProb ⟨so, ar⟩ = N'.occupationProb ⟨so', ar⟩ ∧ S.orderLargest ⟨so, ar⟩ = N'.orderLargest ⟨so', ar⟩ ∧
      S.orderWrapping ⟨so, ar⟩ = N'.orderWrapping ⟨so', ar⟩ ∧ S.getPc ⟨so, ar⟩ = N'.getPc ⟨so', ar⟩ ∧
      S.getSiteCountPc = N'.getSiteCountPc ∧ S.getBondCountPc = N'.getBondCountPc ∧ S.largestCluster = N'.largestCluster ∧
      S.afterWrapping = N'.afterWrapping ∧ (∀ s, S.Occ s ↔ N'.Occ s) := by
  have hids : ∀ i ∈ seq.map Int.ofNat, 0 ≤ i ∧ i < (L : Int) * L := by
    intro i hi
    obtain ⟨k, hk, rfl⟩ := List.mem_map.1 hi
    have := T.seq_lt k hk
    exact ⟨Int.natCast_nonneg k, show (k : Int) < (L : Int) * L by exact_mod_cast this⟩
  obtain ⟨N1, N', q, e1, e2, e3, e4⟩ := C30_run_once (v := .l0) rfl hN (ids := seq.map Int.ofNat) (by simpa using hne) hids
    (T.seq_nodup.map Int.ofNat_injective) draws (fuel := fuel) (by simpa using hf) ds
  have hq : q = seq := List.map_injective_iff.2 Int.ofNat_injective e4
  subst hq
  refine ⟨_, N1, N', (C38_sequence T).1, ?_, e2, e3, C27_observables T e3⟩
  rw [C31_encodes, encode_pairs hN.reach, rowCol_encode]
  exact e1

/-- C38: in exact arithmetic the data arrays agree as well: a first `run_once` of a new L1 object and the replay of its record by a new L0
object give the same data array. -/
theorem C38_same_data {so so' : SetOrder} {S0 S N : Perc ℝ} {draws0 draws1 : Nat → Nat} (h0 : Perc.new (realEnv so) L draws0 = .ok S0)
    {fuel0 fuel : Nat} {ds0 ds : Nat → Draw} (hr : S0.runOnce (realEnv so) .l1 fuel0 ds0 = .ok S) (hN : Perc.new (realEnv so') L draws1 = .ok N)
    (hf : L * L < fuel) (draws : Nat → Nat) :
    ∃ idxs N1 N' rows, S.getIndexSequence .l1 = .ok idxs ∧ N.setCustomIndices idxs false draws = .ok N1 ∧
      N1.runOnce (realEnv so') .l0 fuel ds = .ok N' ∧ S.getDataArray = .ok rows ∧ N'.getDataArray = .ok rows := by
  have hL : 0 < L := (new_inv h0).1
  have F0 : Fresh (realEnv so) .l1 L S0 := .new h0
  have hlists : ∀ {so : SetOrder} {draws : Nat → Nat} {S : Perc ℝ}, Perc.new (realEnv so) L draws = .ok S →
      S.firstRun = true ∧ S.occProbList = [] ∧ S.entropyList = [] ∧ S.orderWrapList = [] ∧ S.orderLargestList = [] := by
    intro so draws S h
    obtain ⟨_, rev, rfl, _⟩ := new_inv h
    exact ⟨rfl, rfl, rfl, rfl, rfl⟩
  obtain ⟨seq, T, hd⟩ := C27_data_array F0.trace hr (hlists h0)
  rw [List.nil_append] at T
  have hperm : seq.length = L * L := by
    have hfull : ∀ s < L * L, S.Occ s := by
      obtain ⟨H, hb, _⟩ := F0.live
      have hr' : (Perc.runLoop (realEnv so) .l1 fuel0 ds0 S0 >>= _) = _ := hr
      cases hl : Perc.runLoop (realEnv so) .l1 fuel0 ds0 S0 with
      | error e => rw [hl] at hr'; cases hr'
      | ok S1 =>
        rw [hl] at hr'
        obtain ⟨S2, e2, _, ho⟩ := H.runOnce (fuel := fuel0 + ((initBudget L .l1).toNat + 1)) ds0 (by rw [hb]; omega)
        have := runLoop_fuel (m := (initBudget L .l1).toNat + 1) fuel0 hl
        simp only [Perc.runOnce] at e2
        rw [this] at e2
        rw [← Except.ok.inj hr', Except.ok.inj e2]
        exact ho
    exact (T.full_length hfull).1
  have hne : seq ≠ [] := by
    intro h; subst h
    have : 0 < L * L := Nat.mul_pos hL hL
    rw [← hperm] at this
    simp at this
  have hids : ∀ i ∈ seq.map Int.ofNat, 0 ≤ i ∧ i < (L : Int) * L := by
    intro i hi
    obtain ⟨k, hk, rfl⟩ := List.mem_map.1 hi
    have := T.seq_lt k hk
    exact ⟨Int.natCast_nonneg k, show (k : Int) < (L : Int) * L by exact_mod_cast this⟩
  have SN : Start (realEnv so') .l0 L N := .new hN
  obtain ⟨N1, e1, R, T1, _⟩ := SN.setIds (ids := seq.map Int.ofNat) (by simpa using hne) hids draws
  rw [map_toNat_ofNat] at R
  obtain ⟨N2, e2, _, _, C⟩ := R.runLoop rfl T.seq_nodup fuel ds T1 (by omega)
  have hN1 : N1.firstRun = true ∧ N1.occProbList = [] ∧ N1.entropyList = [] ∧ N1.orderWrapList = [] ∧ N1.orderLargestList = [] := by
    have hl := hlists hN
    have e1' := e1
    simp only [Perc.setCustomIds] at e1'
    split at e1'
    · cases e1'
    · split at e1'
      · rw [← Except.ok.inj e1']; exact hl
      · obtain ⟨a, r, rfl⟩ := shuffle_ok e1'; exact hl
  refine ⟨_, N1, { N2 with firstRun := false }, _, (C38_sequence T).1, ?_, ?_, hd, ?_⟩
  · rw [C31_encodes, encode_pairs SN.reach, rowCol_encode]; exact e1
  · simp only [Perc.runOnce]; rw [e2]; rfl
  · exact C.data_array hN1

/-- Non-trivial case: an L1 history on a lattice of length 3 that places 0, then 1 as a neighbour of 0. -/
example : ∃ S seq, Trace demoEnv .l1 3 S seq ∧ seq = [0, 1] ∧ S.getIndexSequence .l1 = .ok [[0, 0], [0, 1]] := by
  obtain ⟨S, seq, T, hp⟩ := checkTrace_trace (env := demoEnv) (v := .l1) (L := 3) (ids := [0, 4, 8, 1, 5, 2, 3, 6, 7]) (n := 4)
    (p := fun _ seq => decide (seq = [0, 1])) (by decide +kernel)
  rw [decide_eq_true_eq] at hp
  subst hp
  exact ⟨S, _, T, rfl, (C38_sequence T).1⟩

end SqPerc
