import Verif.Proof.Work
import Verif.Props.Obs
import Verif.Props.Demo
import Mathlib.Data.Nat.Log
/-
C76: how often the group ids of bonds and sites are rewritten.  Merging rewrites the gids of all bonds and sites of the absorbed clusters
(cluster.py:170-178), so these numbers are the work done by the merges.
-/
namespace SqPerc

variable {α : Type} {env : Env α} {L : Nat} {S S' : Perc α} {v : Variant} {n m : Nat → Nat}

/-- `get_bond_gid_by_id(b)` and `get_site_gid_by_id(s)` as they are seen from outside (`none`: exception). -/
def Perc.bondGids (S : Perc α) (b : Nat) : Option Int := (S.lat.getBondGid b).toOption

def Perc.siteGids (S : Perc α) (s : Nat) : Option Int := (S.lat.getSiteGid s).toOption

/-- Any history of calls, with the number `n b` (`m s`) of calls since the construction or the last reset that have changed the gid of bond
`b` (site `s`).  The two constructors `record` and `flags` are what `run_once` does between two placements, so that the placements inside
`run_once` can be counted one by one. -/
inductive Counted (env : Env α) (v : Variant) (L : Nat) : Perc α → (Nat → Nat) → (Nat → Nat) → Prop
  | new {draws : Nat → Nat} {S : Perc α} : Perc.new env L draws = .ok S → Counted env v L S (fun _ => 0) (fun _ => 0)
  | reset {S S' : Perc α} {n m draws : Nat → Nat} : Counted env v L S n m → S.reset env v draws = .ok S' →
      Counted env v L S' (fun _ => 0) (fun _ => 0)
  | step {S S' : Perc α} {n m : Nat → Nat} (op : Op) : Counted env v L S n m → op.isReset = false → SqPerc.step env v S op = .ok S' →
      Counted env v L S' (bump S.bondGids S'.bondGids n) (bump S.siteGids S'.siteGids m)
  | caught {S : Perc α} {n m : Nat → Nat} {e : PyErr} (op : Op) : Counted env v L S n m → SqPerc.step env v S op = .error e →
      Counted env v L (stepRaised env v S op) (bump S.bondGids (stepRaised env v S op).bondGids n)
        (bump S.siteGids (stepRaised env v S op).siteGids m)
  | record {S S' : Perc α} {n m : Nat → Nat} : Counted env v L S n m → S.record env = .ok S' → Counted env v L S' n m
  | flags {S : Perc α} {n m : Nat → Nat} (x : α) (b : Bool) : Counted env v L S n m → Counted env v L { S with shortestP := x, firstRun := b } n m

theorem Counted.inv (h : Counted env v L S n m) : 0 < L ∧ ∃ A, Sim env L S A ∧ AReach env L A ∧ WorkInv L A n m := by
  -- on the ids that exist, the gids seen from outside are those of the view
  have down : ∀ {S S' : Perc α} {A A' : Abs α} {n m : Nat → Nat}, Sim env L S A → Sim env L S' A' →
      WorkInv L A' (bump A.V.bg A'.V.bg n) (bump A.V.sg A'.V.sg m) →
      WorkInv L A' (bump S.bondGids S'.bondGids n) (bump S.siteGids S'.siteGids m) := by
    intro S S' A A' n m M M' W
    have eb : ∀ b < 2 * (L * L), bump S.bondGids S'.bondGids n b = bump A.V.bg A'.V.bg n b := by
      intro b hb
      have e : (S'.bondGids b = S.bondGids b) ↔ A'.V.bg b = A.V.bg b := by
        rw [Perc.bondGids, Perc.bondGids, M.bondGid hb, M'.bondGid hb]; simp [Except.toOption]
      simp only [bump, e]
    have es : ∀ s < L * L, bump S.siteGids S'.siteGids m s = bump A.V.sg A'.V.sg m s := by
      intro s hs
      have e : (S'.siteGids s = S.siteGids s) ↔ A'.V.sg s = A.V.sg s := by
        rw [Perc.siteGids, Perc.siteGids, M.siteGid hs, M'.siteGid hs]; simp [Except.toOption]
      simp only [bump, e]
    exact ⟨fun b hb => by rw [eb b hb]; exact W.bond b hb, fun s hs => by rw [es s hs]; exact W.free s hs,
      fun s hs => by rw [es s hs]; exact W.site s hs⟩
  induction h with
  | new h =>
    obtain ⟨h1, _, h2⟩ := new_sim h
    exact ⟨h1, _, h2, .init (by simp), .init _⟩
  | reset _ hs ih =>
    obtain ⟨hL, A, M, hA, _⟩ := ih
    exact ⟨hL, _, reset_sim M hs, .init hA.inv.selLt, .init _⟩
  | step op _ hr hs ih =>
    obtain ⟨hL, A, M, hA, W⟩ := ih
    rcases step_steps M hA.inv hs with ⟨h, _⟩ | ⟨_, A', h1, h2⟩
    · rw [hr] at h; cases h
    · exact ⟨hL, A', h2, hA.steps h1, down M h2 (W.steps hA.inv h1)⟩
  | caught op _ he ih =>
    obtain ⟨hL, A, M, hA, W⟩ := ih
    obtain ⟨A', h1, h2⟩ := stepRaised_steps M hA he
    exact ⟨hL, A', h2, hA.steps h1, down M h2 (W.steps hA.inv h1)⟩
  | record _ hr ih =>
    obtain ⟨hL, A, M, hA, W⟩ := ih
    exact ⟨hL, A, record_sim M hr, hA, W⟩
  | flags x b _ ih =>
    obtain ⟨hL, A, M, hA, W⟩ := ih
    exact ⟨hL, A, M.aux rfl rfl rfl rfl rfl rfl rfl rfl rfl rfl rfl rfl rfl rfl, hA, W⟩

/-- C76: the gid of a bond is rewritten at most `log₂ (4 L²)` times between two resets, whatever calls are made. -/
theorem C76_bond (h : Counted env v L S n m) {b : Nat} (hb : b < 2 * (L * L)) : 2 ^ n b ≤ 4 * (L * L) := by
  obtain ⟨_, A, M, hA, W⟩ := h.inv
  have C := hA.inv.core
  exact (W.bond b hb).trans (Abs.weight_le C (C.bgr b hb).1 (C.bgr b hb).2)

/-- C76: the gid of a site is rewritten (beginning with its occupation) at most `log₂ (8 L²)` times, not at all while it is empty. -/
theorem C76_site (h : Counted env v L S n m) {s : Nat} (hs : s < L * L) : 2 ^ m s ≤ 8 * (L * L) ∧ (¬ S.Occ s → m s = 0) := by
  obtain ⟨hL, A, M, hA, W⟩ := h.inv
  have C := hA.inv.core
  have hfree : ¬ S.Occ s → m s = 0 := by
    intro ho
    rw [M.occ_iff] at ho
    refine W.free s hs ((C.sgr s hs).resolve_right fun h => ho ⟨hs, h.1⟩)
  refine ⟨?_, hfree⟩
  by_cases h0 : A.V.sg s = -1
  · rw [W.free s hs h0]
    have := Nat.mul_pos hL hL
    omega
  · obtain ⟨g1, g2⟩ := (C.sgr s hs).resolve_left h0
    have := Abs.weight_le C g1 g2
    have := W.site s hs h0
    omega

/-- C76: as long as no wrapping has been detected, the cluster of a bond whose gid was rewritten `n` times has at least `2ⁿ` bonds: an
absorbed cluster is never larger than the one that absorbs it.  Afterwards the same holds for all clusters but the wrapping cluster. -/
theorem C76_doubling (h : Counted env v L S n m) {b : Nat} (hb : b < 2 * (L * L)) : ∃ (g : Int) (l : List Nat),
    S.lat.getBondGid b = .ok g ∧ S.pool.getBonds g = .ok l ∧ b ∈ l ∧ (S.afterWrapping = false ∨ g ≠ S.wrappingId → 2 ^ n b ≤ l.length) ∧
      2 ^ n b ≤ 2 * l.length := by
  obtain ⟨_, A, M, hA, W⟩ := h.inv
  have C := hA.inv.core
  have hW := W.bond b hb
  refine ⟨_, _, M.bondGid hb, M.getBonds (mem_gids.2 (C.bgr b hb)), (C.memb _ (C.bgr b hb).1 (C.bgr b hb).2 b).2 ⟨hb, rfl⟩, fun h => ?_, ?_⟩
  · rw [M.aw, M.wid] at h
    rw [Abs.weight, if_neg (by rintro ⟨h1, h2⟩; rcases h with h | h <;> simp_all), Nat.one_mul] at hW
    exact hW
  · rw [Abs.weight] at hW
    split at hW <;> omega

/-- C76: altogether at most `2 L² log₂ (4 L²)` bond gids are rewritten between two resets, for instance in one `run_once()`. -/
theorem C76_total (h : Counted env v L S n m) : ((List.range (2 * (L * L))).map n).sum ≤ 2 * (L * L) * Nat.log 2 (4 * (L * L)) := by
  have hle : ∀ b ∈ List.range (2 * (L * L)), n b ≤ Nat.log 2 (4 * (L * L)) := by
    intro b hb
    exact Nat.le_log_of_pow_le (by omega) (C76_bond h (List.mem_range.1 hb))
  have : ∀ l : List Nat, (∀ b ∈ l, n b ≤ Nat.log 2 (4 * (L * L))) → (l.map n).sum ≤ l.length * Nat.log 2 (4 * (L * L)) := by
    intro l
    induction l with
    | nil => intro _; simp
    | cons b l ih =>
      intro hl
      rw [List.map_cons, List.sum_cons, List.length_cons, Nat.succ_mul, Nat.add_comm]
      exact Nat.add_le_add (ih fun b hb => hl b (List.mem_cons_of_mem _ hb)) (hl b (List.mem_cons_self ..))
  have := this _ hle
  rwa [List.length_range] at this

theorem Counted.place {d : Draw} {b : Bool} (h : Counted env v L S n m) (hp : S.placeOneSite env v d = .ok (S', b)) :
    Counted env v L S' (bump S.bondGids S'.bondGids n) (bump S.siteGids S'.siteGids m) :=
  .step (.place d) h rfl (by simp only [SqPerc.step]; rw [hp]; rfl)

theorem Counted.detect {w : Bool} (h : Counted env v L S n m) (hd : S.detectWrapping = .ok (S', w)) :
    Counted env v L S' (bump S.bondGids S'.bondGids n) (bump S.siteGids S'.siteGids m) :=
  .step .detect h rfl (by simp only [SqPerc.step]; rw [hd]; rfl)

/-- The loop of `run_once`, with its placements counted one by one. -/
theorem Counted.runLoop (fuel : Nat) : ∀ {S S' : Perc α} {n m : Nat → Nat} {ds : Nat → Draw}, Counted env v L S n m →
    Perc.runLoop env v fuel ds S = .ok S' → ∃ n' m', Counted env v L S' n' m' ∧ (∀ b, bump S.bondGids S'.bondGids n b ≤ n' b) ∧
      ∀ s, bump S.siteGids S'.siteGids m s ≤ m' s := by
  induction fuel with
  | zero => intro S S' n m ds _ h; cases h
  | succ fuel ih =>
    intro S S' n m ds K h
    simp only [Perc.runLoop] at h
    cases hp : S.placeOneSite env v (ds 0) with
    | error e => rw [hp] at h; cases h
    | ok res =>
      obtain ⟨S1, more⟩ := res
      rw [hp] at h
      have K1 := K.place hp
      cases more with
      | false =>
        replace h : (Except.ok S1 : Py (Perc α)) = _ := h
        rw [← Except.ok.inj h]
        exact ⟨_, _, K1, fun b => le_rfl, fun s => le_rfl⟩
      | true =>
        replace h : (if S1.selectionFlag = some .success then _ else _) = _ := h
        split at h
        · cases hd : S1.detectWrapping with
          | error e => rw [hd] at h; cases h
          | ok res =>
            obtain ⟨S2, w⟩ := res
            rw [hd] at h
            have K2 := K1.detect hd
            replace h : (S2.record env >>= _) = _ := h
            cases hr : S2.record env with
            | error e => rw [hr] at h; cases h
            | ok S3 =>
              rw [hr] at h
              have K3 := K2.record hr
              obtain ⟨p, _, e3⟩ := record_ok hr
              obtain ⟨n', m', K', h1, h2⟩ := ih K3 h
              refine ⟨n', m', K', fun b => ?_, fun s => ?_⟩
              · have hs3 : S3.bondGids = S2.bondGids := by rw [e3]; rfl
                refine (bump_trans (f' := S2.bondGids) (fun i => ?_) b).trans (hs3 ▸ h1 b)
                exact bump_trans (fun i => le_rfl) i
              · have hs3 : S3.siteGids = S2.siteGids := by rw [e3]; rfl
                refine (bump_trans (f' := S2.siteGids) (fun i => ?_) s).trans (hs3 ▸ h2 s)
                exact bump_trans (fun i => le_rfl) i
        · obtain ⟨n', m', K', h1, h2⟩ := ih K1 h
          exact ⟨n', m', K', fun b => (bump_trans (fun i => le_rfl) b).trans (h1 b), fun s => (bump_trans (fun i => le_rfl) s).trans (h2 s)⟩

/-- C76 for the placements inside `run_once()` (L0, L1, L2): counted one by one, they rewrite at most `2 L² log₂ (4 L²)` bond gids in one
run, although the run places `L²` sites and a single placement can rewrite almost all gids. -/
theorem C76_run {draws : Nat → Nat} {fuel : Nat} {ds : Nat → Draw} (hv : v ≠ .sp) (hn : Perc.new env L draws = .ok S)
    (hr : S.runOnceV env v fuel ds = .ok S') : ∃ n' m', Counted env v L S' n' m' ∧
      ((List.range (2 * (L * L))).map n').sum ≤ 2 * (L * L) * Nat.log 2 (4 * (L * L)) ∧
      ∀ b < 2 * (L * L), 2 ^ n' b ≤ 4 * (L * L) ∧ (S'.bondGids b ≠ S.bondGids b → 1 ≤ n' b) := by
  have key : ∀ {T : Perc α}, Perc.runOnce env v fuel ds S = .ok T → S' = T → ∃ n' m', Counted env v L S' n' m' ∧
      ((List.range (2 * (L * L))).map n').sum ≤ 2 * (L * L) * Nat.log 2 (4 * (L * L)) ∧
      ∀ b < 2 * (L * L), 2 ^ n' b ≤ 4 * (L * L) ∧ (S'.bondGids b ≠ S.bondGids b → 1 ≤ n' b) := by
    rintro T h rfl
    simp only [Perc.runOnce] at h
    cases hl : Perc.runLoop env v fuel ds S with
    | error e => rw [hl] at h; cases h
    | ok S1 =>
      rw [hl] at h
      have e : S' = { S1 with firstRun := false } := (Except.ok.inj h).symm
      obtain ⟨n', m', K, h1, h2⟩ := Counted.runLoop fuel (Counted.new (v := v) hn) hl
      have K' : Counted env v L S' n' m' := by rw [e]; exact .flags S1.shortestP false K
      refine ⟨n', m', K', C76_total K', fun b hb => ⟨C76_bond K' hb, fun hne => ?_⟩⟩
      have := h1 b
      rw [bump, if_neg (by rw [e] at hne; exact hne)] at this
      omega
  cases v with
  | l0 => exact key hr rfl
  | l1 => exact key hr rfl
  | l2 => exact key hr rfl
  | sp => exact absurd rfl hv

/-! ### Examples -/

/-- A sequence of returning calls with the counts. -/
def countOps (env : Env α) (v : Variant) : List Op → Perc α → (Nat → Nat) → (Nat → Nat) → Option (Perc α × (Nat → Nat) × (Nat → Nat))
  | [], S, n, m => some (S, n, m)
  | op :: ops, S, n, m =>
    if op.isReset then none else
    match SqPerc.step env v S op with
    | .ok S' => countOps env v ops S' (bump S.bondGids S'.bondGids n) (bump S.siteGids S'.siteGids m)
    | .error _ => none

theorem countOps_counted {ops : List Op} : ∀ {S : Perc α} {n m : Nat → Nat} {r}, Counted env v L S n m → countOps env v ops S n m = some r →
    Counted env v L r.1 r.2.1 r.2.2 := by
  induction ops with
  | nil => intro S n m r h e; rw [← Option.some.inj e]; exact h
  | cons op ops ih =>
    intro S n m r h e
    simp only [countOps] at e
    split at e
    · cases e
    · next hr =>
      cases hs : SqPerc.step env v S op with
      | error x => rw [hs] at e; cases e
      | ok S' => rw [hs] at e; exact ih (.step op h (by simpa using hr) hs) e

def checkCount (env : Env α) (v : Variant) (L : Nat) (ops : List Op) (p : Perc α → (Nat → Nat) → (Nat → Nat) → Bool) : Bool :=
  match Perc.new env L (fun _ => 0) with
  | .error _ => false
  | .ok S => match countOps env v ops S (fun _ => 0) (fun _ => 0) with
    | none => false
    | some (S', n, m) => p S' n m

theorem checkCount_counted {ops : List Op} {p : Perc α → (Nat → Nat) → (Nat → Nat) → Bool} (h : checkCount env v L ops p = true) :
    ∃ S n m, Counted env v L S n m ∧ p S n m = true := by
  unfold checkCount at h
  split at h
  · cases h
  · next S hS =>
    split at h
    · cases h
    · next S' n m hc => exact ⟨S', n, m, countOps_counted (.new hS) hc, h⟩

/-- Sites that are placed two by two and then joined: some gid is rewritten three times. -/
example : ∃ (S : Perc Unit) (n m : Nat → Nat), Counted demoEnv .l0 4 S n m ∧ ∃ b < 32, n b = 3 := by
  obtain ⟨S, n, m, h, hp⟩ := checkCount_counted (env := demoEnv) (v := .l0) (L := 4)
    (ops := .setIds [0, 2, 1, 8, 10, 9, 4] false (fun _ => 0) :: List.replicate 7 (.place ⟨0, 0⟩))
    (p := fun _ n _ => (List.range 32).any fun b => n b == 3) (by decide +kernel)
  simp only [List.any_eq_true, List.mem_range, beq_iff_eq] at hp
  exact ⟨S, n, m, h, hp⟩

end SqPerc
