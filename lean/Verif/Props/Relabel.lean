import Verif.Proof.Relabel
import Verif.Props.Wrapping
import Verif.Props.Sequence
/-
Property C56: how often labels change.
-/
namespace SqPerc

variable {α : Type} {L : Nat} {env : Env α} {v : Variant} {S S' : Perc α}

/-- Number of the calls `ops`, made on `S` until one raises, after which `get_bond_gid_by_id(b)` differs from before. -/
def bondRelabels (env : Env α) (v : Variant) (b : Nat) : List Op → Perc α → Nat
  | [], _ => 0
  | op :: ops, S =>
    match SqPerc.step env v S op with
    | .error _ => 0
    | .ok S' => (if S'.lat.getBondGid b = S.lat.getBondGid b then 0 else 1) + bondRelabels env v b ops S'

/-- The same for `get_site_gid_by_id(s)`. -/
def siteRelabels (env : Env α) (v : Variant) (s : Nat) : List Op → Perc α → Nat
  | [], _ => 0
  | op :: ops, S =>
    match SqPerc.step env v S op with
    | .error _ => 0
    | .ok S' => (if S'.lat.getSiteGid s = S.lat.getSiteGid s then 0 else 1) + siteRelabels env v s ops S'

theorem bondRelabels_le {b : Nat} (hb : b < 2 * (L * L)) : ∀ {ops : List Op} {S : Perc α} {A : Abs α}, Sim env L S A → AReach env L A →
    (∀ op ∈ ops, op.isReset = false) → A.rank b + bondRelabels env v b ops S ≤ Nat.log 2 (2 * (L * L)) + 1 := by
  intro ops
  induction ops with
  | nil => intro S A M hA _; exact hA.rank_le hb
  | cons op ops ih =>
    intro S A M hA hr
    unfold bondRelabels
    cases hs : SqPerc.step env v S op with
    | error e => exact hA.rank_le hb
    | ok S' =>
      rcases step_steps M hA.inv hs with ⟨h, _⟩ | ⟨_, A', h1, M'⟩
      · rw [hr op (by simp)] at h; cases h
      · have hA' := hA.steps h1
        have := ih M' hA' (fun o ho => hr o (by simp [ho]))
        have up := ASteps.rankUp hA h1 hb
        unfold RankUp at up
        show _ + ((if S'.lat.getBondGid b = S.lat.getBondGid b then 0 else 1) + _) ≤ _
        rw [M'.bondGid hb, M.bondGid hb]
        have e : ((Except.ok (A'.V.bg b) : Py Int) = .ok (A.V.bg b)) ↔ A'.V.bg b = A.V.bg b := by simp
        simp only [e]
        omega

/-- C56: between two resets the cluster id of a bond changes after at most `log₂(2 L²) + 1` calls, whatever calls are made (a merge keeps
the id of the larger cluster, or that of the wrapping cluster). -/
theorem C56_bond_relabels (h : Reach env v L S) {b : Nat} (hb : b < 2 * (L * L)) {ops : List Op}
    (hops : ∀ op ∈ ops, op.isReset = false) : bondRelabels env v b ops S ≤ Nat.log 2 (2 * (L * L)) + 1 := by
  obtain ⟨_, A, M, hA⟩ := h.sim
  have := bondRelabels_le (v := v) hb M hA hops
  omega

/-- C56: so all bonds together are relabelled at most `2 L² (log₂(2 L²) + 1)` times. -/
theorem C56_total_relabels (h : Reach env v L S) {ops : List Op} (hops : ∀ op ∈ ops, op.isReset = false) :
    ∑ b ∈ Finset.range (2 * (L * L)), bondRelabels env v b ops S ≤ 2 * (L * L) * (Nat.log 2 (2 * (L * L)) + 1) := by
  have := Finset.sum_le_card_nsmul (Finset.range (2 * (L * L))) (fun b => bondRelabels env v b ops S) (Nat.log 2 (2 * (L * L)) + 1)
    (fun b hb => C56_bond_relabels h (Finset.mem_range.1 hb) hops)
  simpa using this

/-- The rank of a site: that of its bonds plus one once it is occupied. -/
def Abs.srank (L : Nat) (A : Abs α) (s : Nat) : Nat := if 0 ≤ A.V.sg s then A.rank (bondAt L s .right) + 1 else 0

theorem siteRelabels_le {s : Nat} (hs : s < L * L) : ∀ {ops : List Op} {S : Perc α} {A : Abs α}, Sim env L S A → AReach env L A →
    (∀ op ∈ ops, op.isReset = false) → A.srank L s + siteRelabels env v s ops S ≤ Nat.log 2 (2 * (L * L)) + 2 := by
  have hrk : ∀ {A : Abs α}, AReach env L A → A.srank L s ≤ Nat.log 2 (2 * (L * L)) + 2 := by
    intro A hA
    have := hA.rank_le (bondAt_lt hs .right)
    unfold Abs.srank
    split <;> omega
  intro ops
  induction ops with
  | nil => intro S A M hA _; exact hrk hA
  | cons op ops ih =>
    intro S A M hA hr
    unfold siteRelabels
    cases hst : SqPerc.step env v S op with
    | error e => exact hrk hA
    | ok S' =>
      rcases step_steps M hA.inv hst with ⟨h, _⟩ | ⟨_, A', h1, M'⟩
      · rw [hr op (by simp)] at h; cases h
      · have hA' := hA.steps h1
        have := ih M' hA' (fun o ho => hr o (by simp [ho]))
        have up := ASteps.rankUp hA h1 (bondAt_lt hs .right)
        unfold RankUp at up
        show _ + ((if S'.lat.getSiteGid s = S.lat.getSiteGid s then 0 else 1) + _) ≤ _
        rw [M'.siteGid hs, M.siteGid hs]
        have e : ((Except.ok (A'.V.sg s) : Py Int) = .ok (A.V.sg s)) ↔ A'.V.sg s = A.V.sg s := by simp
        simp only [e]
        have key : A.srank L s + (if A'.V.sg s = A.V.sg s then 0 else 1) ≤ A'.srank L s := by
          unfold Abs.srank
          rcases hA.inv.core.sgr s hs with h0 | h0
          · rw [if_neg (by omega : ¬ 0 ≤ A.V.sg s)]
            rcases hA'.inv.core.sgr s hs with h0' | h0'
            · rw [if_pos (h0'.trans h0.symm), if_neg (by omega)]
            · rw [if_neg (by omega), if_pos h0'.1]; omega
          · have ho : VOcc L A.V s := ⟨hs, h0.1⟩
            have ho' : VOcc L A'.V s := ASteps.occ_keep hA h1 ho
            rw [if_pos h0.1, if_pos ho'.2, ← hA.inv.core.inc s .right ho, ← hA'.inv.core.inc s .right ho']
            omega
        omega

/-- C56: the cluster id of a site changes after at most `log₂(2 L²) + 2` calls between two resets (its occupation included). -/
theorem C56_site_relabels (h : Reach env v L S) {s : Nat} (hs : s < L * L) {ops : List Op}
    (hops : ∀ op ∈ ops, op.isReset = false) : siteRelabels env v s ops S ≤ Nat.log 2 (2 * (L * L)) + 2 := by
  obtain ⟨_, A, M, hA⟩ := h.sim
  have := siteRelabels_le (v := v) hs M hA hops
  omega

/-- L = 4: bond 9 (and no bond more often) is relabelled three times, the bound is 6; its site 9 twice, the occupation included. -/
example : ∃ S, Reach demoEnv .l0 4 S ∧
    bondRelabels demoEnv .l0 9 (List.replicate 7 Op.place0) S = 3 ∧ siteRelabels demoEnv .l0 9 (List.replicate 7 Op.place0) S = 2 := by
  obtain ⟨S, h, hp⟩ := checkOps_reach (env := demoEnv) (v := .l0) (L := 4) (ops := placeInOrder [0, 2, 1, 8, 10, 9, 4] 0)
    (p := fun S => decide (bondRelabels demoEnv .l0 9 (List.replicate 7 Op.place0) S = 3) &&
      decide (siteRelabels demoEnv .l0 9 (List.replicate 7 Op.place0) S = 2)) (by decide +kernel)
  simp only [Bool.and_eq_true, decide_eq_true_eq] at hp
  exact ⟨S, h, hp⟩

end SqPerc
