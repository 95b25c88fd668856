import Verif.Model.History
import Mathlib.Data.List.Dedup
/-
A concrete environment and helpers to exhibit concrete histories, used by the examples beside the theorems.
-/
namespace SqPerc

variable {α : Type}

/-- A set iteration order: last occurrences first to last. -/
def demoSet : SetOrder := ⟨fun l => l.dedup, fun l => List.nodup_dedup l, fun _ _ => List.mem_dedup⟩

/-- Another set iteration order. -/
def demoSet' : SetOrder := ⟨fun l => l.dedup.reverse, fun l => List.nodup_reverse.2 (List.nodup_dedup l), fun _ _ => by simp⟩

/-- Arithmetic on a one-element type, for examples that are not about numbers. -/
def unitArith : Arith Unit := ⟨fun _ => (), fun _ _ => (), fun _ _ => (), fun _ _ => (), fun _ _ => (), fun _ => (), fun _ => ()⟩

/-- A concrete environment. -/
def demoEnv : Env Unit := ⟨demoSet, unitArith⟩

/-- A sequence of calls. -/
def runOps (env : Env α) (v : Variant) : List Op → Perc α → Py (Perc α)
  | [], S => .ok S
  | op :: ops, S => step env v S op >>= runOps env v ops

theorem Reach.ops {env : Env α} {v : Variant} {L : Nat} : ∀ {ops : List Op} {S S' : Perc α}, Reach env v L S →
    runOps env v ops S = .ok S' → Reach env v L S' := by
  intro ops
  induction ops with
  | nil => intro S S' h e; rw [← Except.ok.inj e]; exact h
  | cons op ops ih =>
    intro S S' h e
    simp only [runOps] at e
    cases hs : SqPerc.step env v S op with
    | error x => rw [hs] at e; cases e
    | ok S1 =>
      rw [hs] at e
      exact ih (.step op h hs) e

/-- Evaluate a check on the state after construction and some calls. -/
def checkOps (env : Env α) (v : Variant) (L : Nat) (ops : List Op) (p : Perc α → Bool) : Bool :=
  match Perc.new env L (fun _ => 0) >>= runOps env v ops with
  | .ok S => p S
  | .error _ => false

theorem checkOps_reach {env : Env α} {v : Variant} {L : Nat} {ops : List Op} {p : Perc α → Bool}
    (h : checkOps env v L ops p = true) : ∃ S, Reach env v L S ∧ p S = true := by
  unfold checkOps at h
  cases hn : Perc.new env L (fun _ => 0) with
  | error e => rw [hn] at h; cases h
  | ok S0 =>
    rw [hn] at h
    replace h : (match runOps env v ops S0 with | .ok S => p S | .error _ => false) = true := h
    cases hr : runOps env v ops S0 with
    | error e => rw [hr] at h; cases h
    | ok S => rw [hr] at h; exact ⟨S, Reach.ops (.new hn) hr, h⟩

/-- `place_one_site()` with draws 0. -/
abbrev Op.place0 : Op := .place ⟨0, 0⟩

/-- The calls of a user who sets the site order `ids` and places `n` sites. -/
def placeInOrder (ids : List Int) (n : Nat) : List Op :=
  .setIds ids false (fun _ => 0) :: List.replicate n .place0

/-- The same with `detect_wrapping()` after each placement. -/
def placeDetect (ids : List Int) (n : Nat) : List Op :=
  .setIds ids false (fun _ => 0) :: (List.replicate n [Op.place0, Op.detect]).flatten

/-- Whether a call returned a given value. -/
def isOk {β : Type} [DecidableEq β] (x : Py β) (b : β) : Bool :=
  match x with
  | .ok a => decide (a = b)
  | .error _ => false

theorem isOk_iff {β : Type} [DecidableEq β] {x : Py β} {b : β} : isOk x b = true ↔ x = .ok b := by
  unfold isOk; split <;> simp

end SqPerc
