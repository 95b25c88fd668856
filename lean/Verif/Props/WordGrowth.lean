import Verif.Props.WordLaw
import Verif.Props.Growth
/-
Property C108 for L1 and L2: `select_site` asks for numbers depending on what has been placed so far.
-/
namespace SqPerc

open MeasureTheory

variable {α β γ σ : Type} {L E M : Nat} {v : Variant} {so : SetOrder} {env : Env α} {S S' : Perc α}

/-! ### Results that have a property whatever the answers -/

namespace Ask

/-- All possible results have the property. -/
def Ends (P : β → Prop) : Ask β → Prop
  | ret b => P b
  | ask _ k => ∀ i, (k i).Ends P

theorem Ends.run {P : β → Prop} (G : Rng σ) : ∀ {p : Ask β} (_ : p.Ends P) (g : σ), P (p.run G g).1
  | ret _, h, _ => h
  | ask _ _, h, _ => Ends.run G (h _) _

theorem Ends.bind {P : β → Prop} {Q : γ → Prop} {g : β → Ask γ} : ∀ {p : Ask β} (_ : p.Ends P) (_ : ∀ b, P b → (g b).Ends Q), (p.bind g).Ends Q
  | ret b, h, hg => hg b h
  | ask _ _, h, hg => fun i => Ends.bind (h i) hg

theorem ends_true : ∀ p : Ask β, p.Ends fun _ => True
  | ret _ => trivial
  | ask _ k => fun i => ends_true (k i)

theorem Ends.mean_congr {P : β → Prop} {f f' : β → ℝ} (hf : ∀ b, P b → f b = f' b) : ∀ {p : Ask β} (_ : p.Ends P), p.mean f = p.mean f'
  | ret b, h => hf b h
  | ask n k, h => by
    show (∑ i ∈ Finset.range n, (k i).mean f) / n = (∑ i ∈ Finset.range n, (k i).mean f') / n
    rw [Finset.sum_congr rfl fun i _ => Ends.mean_congr hf (h i)]

theorem Fits.bind_ends {P : β → Prop} {d e : Nat} {p : Ask β} {g : β → Ask γ} (h : p.Fits d) (hp : p.Ends P) (hg : ∀ b, P b → (g b).Fits e) :
    (p.bind g).Fits (d + e) := by
  induction p generalizing d with
  | ret b => exact (hg b hp).mono (by omega)
  | ask n k ih =>
    cases d with
    | zero => exact h.elim
    | succ d =>
      rw [show d + 1 + e = d + e + 1 by omega]
      exact ⟨h.1, h.2.1, fun i hi => ih i (h.2.2 i hi) (hp i)⟩

end Ask

/-! ### The placements -/

/-- The numbers that `select_site` of L1 and L2 asks for. -/
def Perc.drawA (S : Perc α) : Ask Draw :=
  if S.currentIdx ≥ S.lat.siteCount ∨ S.siteIds.length ≤ S.currentIdx then .ret ⟨0, 0⟩
  else .ask (S.siteIds.length - S.currentIdx) fun a =>
    match S.secondRange (S.currentIdx + a % (S.siteIds.length - S.currentIdx)) with
    | none => .ret ⟨a, 0⟩
    | some n => .ask n fun b => .ret ⟨a, b⟩

theorem drawA_run (G : Rng σ) (hv : v = .l1 ∨ v = .l2) (S : Perc α) (g : σ) : S.drawA.run G g = S.drawG G v g := by
  rcases hv with rfl | rfl <;>
  · unfold Perc.drawA Perc.drawG
    simp only
    split
    · rfl
    · show Ask.run G (match S.secondRange (S.currentIdx + (G.below (S.siteIds.length - S.currentIdx) g).1 % (S.siteIds.length - S.currentIdx)) with
        | none => Ask.ret _
        | some n => Ask.ask n fun b => Ask.ret _) _ = _
      cases S.secondRange (S.currentIdx + (G.below (S.siteIds.length - S.currentIdx) g).1 % (S.siteIds.length - S.currentIdx)) <;> rfl

/-- The loop of `run_once` after the numbers for a call of `place_one_site` are known: the next state and whether it goes on. -/
def turn (env : Env α) (r : Py (Perc α × Bool)) : Py (Perc α × Bool) := do
  let (S, more) ← r
  if more then
    if S.selectionFlag = some .success then
      let (S, _) ← S.detectWrapping
      let S ← S.record env
      return (S, true)
    else return (S, true)
  else return (S, false)

/-- The loop of `run_once`, asking for its numbers. -/
def loopA (env : Env α) (v : Variant) : Nat → Perc α → Ask (Py (Perc α))
  | 0, _ => .ret (.error .outOfFuel)
  | fuel + 1, S => S.drawA.bind fun d =>
    match turn env (S.placeOneSite env v d) with
    | .error e => .ret (.error e)
    | .ok (S, true) => loopA env v fuel S
    | .ok (S, false) => .ret (.ok S)

theorem runLoop_turn (fuel : Nat) (ds : Nat → Draw) (S : Perc α) : Perc.runLoop env v (fuel + 1) ds S =
    match turn env (S.placeOneSite env v (ds 0)) with
    | .error e => .error e
    | .ok (S, true) => Perc.runLoop env v fuel (fun i => ds (i + 1)) S
    | .ok (S, false) => .ok S := by
  simp only [Perc.runLoop, turn]
  cases S.placeOneSite env v (ds 0) with
  | error x => rfl
  | ok r =>
    obtain ⟨R, more⟩ := r
    cases more with
    | false => rfl
    | true =>
      simp only [if_true, bind, Except.bind]
      by_cases hf : R.selectionFlag = some .success
      · simp only [if_pos hf]
        cases R.detectWrapping with
        | error x => rfl
        | ok q =>
          simp only
          cases q.1.record env with
          | error x => rfl
          | ok T => rfl
      · simp only [if_neg hf]
        rfl

theorem runLoopG_turn (G : Rng σ) (fuel : Nat) (S : Perc α) (g : σ) : Perc.runLoopG G env v (fuel + 1) S g =
    match turn env (S.placeOneSite env v (S.drawG G v g).1) with
    | .error e => .error e
    | .ok (S', true) => Perc.runLoopG G env v fuel S' (S.drawG G v g).2
    | .ok (S', false) => .ok (S', (S.drawG G v g).2) := by
  simp only [Perc.runLoopG, turn]
  cases S.placeOneSite env v (S.drawG G v g).1 with
  | error x => rfl
  | ok r =>
    obtain ⟨R, more⟩ := r
    cases more with
    | false => rfl
    | true =>
      simp only [if_true, bind, Except.bind]
      by_cases hf : R.selectionFlag = some .success
      · simp only [if_pos hf]
        cases R.detectWrapping with
        | error x => rfl
        | ok q =>
          simp only
          cases q.1.record env with
          | error x => rfl
          | ok T => rfl
      · simp only [if_neg hf]
        rfl

/-- The result of a computation and the state of the generator after it, if it does not raise. -/
def withState {τ : Type} (r : Py τ × σ) : Py (τ × σ) := (fun t => (t, r.2)) <$> r.1

theorem loopA_run (G : Rng σ) (hv : v = .l1 ∨ v = .l2) (fuel : Nat) : ∀ (S : Perc α) (g : σ),
    Perc.runLoopG G env v fuel S g = withState ((loopA env v fuel S).run G g) := by
  induction fuel with
  | zero => intro S g; rfl
  | succ fuel ih =>
    intro S g
    rw [runLoopG_turn, loopA, Ask.run_bind, drawA_run G hv]
    rcases turn env (S.placeOneSite env v (S.drawG G v g).1) with e | ⟨R, more⟩
    · rfl
    · cases more with
      | false => rfl
      | true => exact ih R _

theorem Live.turn (H : Live env v L S) (d : Draw) : (∃ e, SqPerc.turn env (S.placeOneSite env v d) = .error e) ∨
    (∃ R, SqPerc.turn env (S.placeOneSite env v d) = .ok (R, true) ∧ Live env v L R ∧ 0 < S.budget L v ∧ R.budget L v + 1 = S.budget L v) ∨
    (∃ R, S.placeOneSite env v d = .ok (R, false) ∧ SqPerc.turn env (S.placeOneSite env v d) = .ok (R, false) ∧ Live env v L R ∧ S.budget L v = 0) := by
  obtain ⟨R, b, h1, h2, h3, h4⟩ := H.place d
  rw [h1]
  cases b with
  | false => exact .inr (.inr ⟨R, rfl, rfl, h2, (h4 rfl).1⟩)
  | true =>
    obtain ⟨h5, h6⟩ := h3 rfl
    simp only [SqPerc.turn, if_true, bind, Except.bind]
    by_cases hf : R.selectionFlag = some .success
    · simp only [if_pos hf]
      cases hd : R.detectWrapping with
      | error x => exact .inl ⟨x, rfl⟩
      | ok q =>
        obtain ⟨T, w⟩ := q
        simp only
        cases hr : T.record env with
        | error x => exact .inl ⟨x, rfl⟩
        | ok U =>
          obtain ⟨g1, g2⟩ := h2.detect hd
          obtain ⟨g3, g4⟩ := g1.record hr
          exact .inr (.inl ⟨U, rfl, g3, h5, by rw [g4, g2]; exact h6⟩)
    · simp only [if_neg hf]
      exact .inr (.inl ⟨R, rfl, h2, h5, h6⟩)

/-- What the random numbers mean for a call of `place_one_site`. -/
theorem Live.draws (H : Live env v L S) (hv : v = .l1 ∨ v = .l2) :
    (L * L ≤ S.currentIdx ∧ S.drawA = .ret ⟨0, 0⟩ ∧ ∀ d d', S.placeOneSite env v d = S.placeOneSite env v d') ∨
    (∃ w, 0 < w ∧ w ≤ L * L ∧ S.drawA = .ask w (fun a => match S.secondRange (S.currentIdx + a % w) with
        | none => .ret ⟨a, 0⟩
        | some n => .ask n fun b => .ret ⟨a, b⟩) ∧
      (∀ a b, S.placeOneSite env v ⟨a, b⟩ = S.placeOneSite env v ⟨a % w, b⟩) ∧
      ∀ a, (S.secondRange (S.currentIdx + a % w) = none ∧ ∀ b b', S.placeOneSite env v ⟨a, b⟩ = S.placeOneSite env v ⟨a, b'⟩) ∨
        S.secondRange (S.currentIdx + a % w) = some 4) := by
  obtain ⟨A, Ms, hA⟩ := H.sim
  have hcount : S.lat.siteCount = L * L := by rw [Ms.lat, mkLat_siteCount]
  by_cases hc : L * L ≤ S.currentIdx
  · refine .inl ⟨hc, by rw [Perc.drawA, if_pos (.inl (by rw [hcount]; exact hc))], fun d d' => ?_⟩
    have : ∀ d, S.selectSite v d = .ok (S, .emptySiteList) := by
      intro d
      rcases hv with rfl | rfl
      · show Perc.selectL1 S d = _
        rw [Perc.selectL1, if_pos (by rw [hcount]; exact hc)]
      · show Perc.selectL2 S d = _
        rw [Perc.selectL2, if_pos (by rw [hcount]; exact hc)]
    simp only [Perc.placeOneSite, this]
  · have hlen := H.len
    obtain ⟨w, hw⟩ : ∃ w, w = S.siteIds.length - S.currentIdx := ⟨_, rfl⟩
    refine .inr ⟨w, by omega, by omega, by rw [Perc.drawA, if_neg (by rw [hcount]; omega), ← hw], fun a b => ?_, fun a => ?_⟩
    · have : S.selectSite v ⟨a, b⟩ = S.selectSite v ⟨a % w, b⟩ := by
        rcases hv with rfl | rfl
        · show Perc.selectL1 S _ = Perc.selectL1 S _
          simp only [Perc.selectL1, randint, ← hw, Nat.mod_mod]
        · show Perc.selectL2 S _ = Perc.selectL2 S _
          simp only [Perc.selectL2, randint, ← hw, Nat.mod_mod]
      simp only [Perc.placeOneSite, this]
    · have hr : S.currentIdx + a % w < S.siteIds.length := by
        have := Nat.mod_lt a (show 0 < w by omega)
        omega
      obtain ⟨x, hx⟩ : ∃ x, x = S.siteIds[S.currentIdx + a % w]'hr := ⟨_, rfl⟩
      have hget : S.siteIds[S.currentIdx + a % w]? = some x := by rw [List.getElem?_eq_getElem hr, hx]
      have hxl : x < L * L := H.lt x (by rw [hx]; exact List.getElem_mem _)
      have e1 : pyGet S.siteIds (S.currentIdx + a % w) = .ok x := by simp only [pyGet, hget]
      have e2 : S.lat.getSite x = .ok (mkSite L A.V x) := by rw [Ms.lat]; exact getSite_mk hxl
      have e3 : S.lat.getAllNeighborSites x = .ok (Dir.all.map (nbr L x)) := by rw [Ms.lat]; exact getAllNeighborSites_mk hxl
      cases ho : (mkSite L A.V x).isOccupied with
      | true =>
        refine .inr ?_
        simp only [Perc.secondRange, e1, e2, e3, ho, bind, Except.bind, pure, Except.pure]
        rfl
      | false =>
        refine .inl ⟨?_, fun b b' => ?_⟩
        · simp only [Perc.secondRange, e1, e2, ho, bind, Except.bind, pure, Except.pure]
          rfl
        · have : S.selectSite v ⟨a, b⟩ = S.selectSite v ⟨a, b'⟩ := by
            have h0 : ¬ S.siteIds.length ≤ S.currentIdx := by omega
            have h1 : ¬ S.currentIdx ≥ S.lat.siteCount := by rw [hcount]; omega
            rcases hv with rfl | rfl
            · show Perc.selectL1 S _ = Perc.selectL1 S _
              simp only [Perc.selectL1, if_neg h1, randint, if_neg h0, ← hw, bind, Except.bind, e1, e2, ho, Bool.false_eq_true, if_false]
            · show Perc.selectL2 S _ = Perc.selectL2 S _
              simp only [Perc.selectL2, if_neg h1, randint, if_neg h0, ← hw, bind, Except.bind, e1, e2, ho, Bool.false_eq_true, if_false]
          simp only [Perc.placeOneSite, this]

theorem Live.drawA_fits (H : Live env v L S) (hv : v = .l1 ∨ v = .l2) (hL2 : L * L < 2 ^ 32) : S.drawA.Fits 2 := by
  rcases H.draws hv with ⟨_, e, _⟩ | ⟨w, h1, h2, e, _, h4⟩
  · rw [e]; exact Ask.fits_ret _
  · rw [e]
    refine ⟨h1, by omega, fun a _ => ?_⟩
    beta_reduce
    rcases h4 a with ⟨h5, _⟩ | h5
    · rw [h5]; exact Ask.fits_ret _
    · rw [h5]; exact ⟨by norm_num, by norm_num, fun _ _ => Ask.fits_ret _⟩

theorem Live.loopA_fits (hv : v = .l1 ∨ v = .l2) (hL2 : L * L < 2 ^ 32) (fuel : Nat) : ∀ {S : Perc α}, Live env v L S →
    (loopA env v fuel S).Fits (2 * fuel) ∧ (loopA env v fuel S).Ends fun r => ∀ R, r = .ok R → Live env v L R := by
  induction fuel with
  | zero => intro S _; exact ⟨Ask.fits_ret _, fun R h => by cases h⟩
  | succ fuel ih =>
    intro S H
    constructor
    · rw [show 2 * (fuel + 1) = 2 + 2 * fuel by omega]
      refine (H.drawA_fits hv hL2).bind fun d => ?_
      rcases H.turn d with ⟨e, h1⟩ | ⟨R, h1, h2, _⟩ | ⟨R, _, h1, _⟩ <;> rw [h1]
      · exact Ask.fits_ret _
      · exact (ih h2).1
      · exact Ask.fits_ret _
    · refine (Ask.ends_true _).bind fun d _ => ?_
      rcases H.turn d with ⟨e, h1⟩ | ⟨R, h1, h2, _⟩ | ⟨R, _, h1, h2, _⟩ <;> rw [h1]
      · intro R h; cases h
      · exact (ih h2).2
      · intro R' h; cases h; exact h2

/-! ### Averages -/

theorem meanOf_pair {A B : Type} [Fintype A] [Fintype B] (F : A × B → ℝ) : meanOf F = meanOf fun a => meanOf fun b => F (a, b) := by
  unfold meanOf
  rw [Fintype.sum_prod_type, Fintype.card_prod, ← Finset.sum_div, div_div]
  push_cast
  rw [mul_comm]

theorem sum_periodic {w : Nat} {h : Nat → ℝ} (hh : ∀ a, h a = h (a % w)) : ∀ q, ∑ a ∈ Finset.range (w * q), h a = q * ∑ a ∈ Finset.range w, h a
  | 0 => by simp
  | q + 1 => by
    rw [Nat.mul_succ, Finset.sum_range_add, sum_periodic hh q]
    have : ∀ x ∈ Finset.range w, h (w * q + x) = h x := by
      intro x hx
      rw [hh, Nat.mul_add_mod, ← hh]
    rw [Finset.sum_congr rfl this]
    push_cast
    ring

theorem meanOf_periodic {w : Nat} (hw : 0 < w) (hM : 0 < M) (hd : w ∣ M) {h : Nat → ℝ} (hh : ∀ a, h a = h (a % w)) :
    meanOf (fun a : Fin M => h a.1) = (∑ a ∈ Finset.range w, h a) / w := by
  obtain ⟨q, rfl⟩ := hd
  have hq : 0 < q := Nat.pos_of_mul_pos_left hM |> fun _ => Nat.pos_of_ne_zero fun e => by subst e; simp at hM
  unfold meanOf
  rw [← Finset.sum_range fun a => h a, sum_periodic hh, Fintype.card_fin]
  push_cast
  have h1 : (w : ℝ) ≠ 0 := by exact_mod_cast hw.ne'
  have h2 : (q : ℝ) ≠ 0 := by exact_mod_cast hq.ne'
  field_simp

/-- The numbers of `select_site` are as good as a number below `M` and a number below 4, for every `M` that all numbers of candidates divide. -/
theorem Live.draw_mean (H : Live env v L S) (hv : v = .l1 ∨ v = .l2) (hM : 0 < M) (hd : ∀ w, 0 < w → w ≤ L * L → w ∣ M)
    (Ψ : Py (Perc α × Bool) → ℝ) :
    S.drawA.mean (fun d => Ψ (S.placeOneSite env v d)) = meanOf fun p : Fin M × Fin 4 => Ψ (S.placeOneSite env v ⟨p.1.1, p.2.1⟩) := by
  have : Nonempty (Fin M) := ⟨⟨0, hM⟩⟩
  rcases H.draws hv with ⟨_, e, h1⟩ | ⟨w, h1, h2, e, h3, h4⟩
  · rw [e]
    refine (meanOf_const (ι := Fin M × Fin 4) (Ψ (S.placeOneSite env v ⟨0, 0⟩))).symm.trans ?_
    exact meanOf_congr fun p => congrArg Ψ (h1 _ _)
  · rw [meanOf_pair]
    have e1 : ∀ a : Nat, meanOf (fun b : Fin 4 => Ψ (S.placeOneSite env v ⟨a, b.1⟩)) =
        (match S.secondRange (S.currentIdx + a % w) with
          | none => Ask.ret (⟨a, 0⟩ : Draw)
          | some n => Ask.ask n fun b => Ask.ret (⟨a, b⟩ : Draw)).mean fun d => Ψ (S.placeOneSite env v d) := by
      intro a
      rcases h4 a with ⟨h5, h6⟩ | h5
      · rw [h5]
        refine Eq.trans ?_ (meanOf_const (ι := Fin 4) (Ψ (S.placeOneSite env v ⟨a, 0⟩)))
        exact meanOf_congr fun b => congrArg Ψ (h6 _ _)
      · rw [h5]
        show meanOf _ = (∑ b ∈ Finset.range 4, Ψ (S.placeOneSite env v ⟨a, b⟩)) / (4 : Nat)
        unfold meanOf
        rw [Fintype.card_fin, ← Finset.sum_range fun b => Ψ (S.placeOneSite env v ⟨a, b⟩)]
    have e2 := meanOf_periodic h1 hM (hd w h1 h2) (h := fun a => meanOf fun b : Fin 4 => Ψ (S.placeOneSite env v ⟨a, b.1⟩)) fun a =>
      meanOf_congr fun b => by rw [h3]
    refine Eq.trans ?_ e2.symm
    rw [e]
    show (∑ a ∈ Finset.range w, _) / (w : ℝ) = _
    rw [Finset.sum_congr rfl fun a _ => (e1 a).symm]

theorem Draws.cons_seq {n : Nat} (p : Fin M × Fin 4) (y : Draws M n) : Draws.seq (M := M) (n := n + 1) (Fin.cons p y) 0 = ⟨p.1.1, p.2.1⟩ ∧
    (fun i => Draws.seq (M := M) (n := n + 1) (Fin.cons p y) (i + 1)) = y.seq := by
  constructor
  · rfl
  · funext i
    unfold Draws.seq
    by_cases h : i < n
    · rw [dif_pos h, dif_pos (by omega)]
      rfl
    · rw [dif_neg h, dif_neg (by omega)]

theorem Live.loop_mean (hv : v = .l1 ∨ v = .l2) (hM : 0 < M) (hd : ∀ w, 0 < w → w ≤ L * L → w ∣ M) (f : Py (Perc α) → ℝ) (fuel : Nat) :
    ∀ {S : Perc α} {n : Nat}, Live env v L S → S.budget L v ≤ n →
      (loopA env v fuel S).mean f = meanOf fun y : Draws M n => f (Perc.runLoop env v fuel y.seq S) := by
  induction fuel with
  | zero =>
    intro S n _ _
    have := draws_nonempty (n := n) hM
    rw [← meanOf_const (ι := Draws M n) ((loopA env v 0 S).mean f)]
    rfl
  | succ fuel ih =>
    intro S n H hn
    rw [loopA, Ask.mean_bind]
    let Ψ : Py (Perc α × Bool) → ℝ := fun r => (match SqPerc.turn env r with
      | .error e => Ask.ret (Except.error e : Py (Perc α))
      | .ok (S, true) => loopA env v fuel S
      | .ok (S, false) => Ask.ret (Except.ok S)).mean f
    have e0 := H.draw_mean hv hM hd Ψ
    refine Eq.trans e0 ?_
    cases n with
    | zero =>
      have h0 : S.budget L v = 0 := le_antisymm (by simpa using hn) H.nonneg
      rw [← e0]
      have := draws_nonempty (n := 0) hM
      rcases H.draws hv with ⟨_, e, h1⟩ | ⟨w, h1, h2, e, _, _⟩
      · rw [e]
        refine (meanOf_const (ι := Draws M 0) (Ψ (S.placeOneSite env v ⟨0, 0⟩))).symm.trans ?_
        refine meanOf_congr fun y => ?_
        rw [runLoop_turn, h1 (y.seq 0) ⟨0, 0⟩]
        rcases H.turn ⟨0, 0⟩ with ⟨e, h1⟩ | ⟨R, h1, h2, h3, _⟩ | ⟨R, _, h1, _⟩
        · simp only [Ψ, h1]; rfl
        · omega
        · simp only [Ψ, h1]; rfl
      · exfalso
        have hp := H.pool_nil hv h0
        rw [Perc.pool', List.drop_eq_nil_iff] at hp
        have hlen := H.len
        obtain ⟨A, Ms, _⟩ := H.sim
        have hcount : S.lat.siteCount = L * L := by rw [Ms.lat, mkLat_siteCount]
        rw [Perc.drawA, if_pos (.inr hp)] at e
        cases e
    | succ n =>
      rw [meanOf_cons (D := Fin M × Fin 4) (E := n) (fun y => f (Perc.runLoop env v (fuel + 1) (Draws.seq (M := M) y) S))]
      have := draws_nonempty (n := n) hM
      refine meanOf_congr fun p => ?_
      simp only [runLoop_turn, Draws.cons_seq]
      rcases H.turn ⟨p.1.1, p.2.1⟩ with ⟨e, h1⟩ | ⟨R, h1, h2, _, h4⟩ | ⟨R, _, h1, _⟩
      · simp only [Ψ, h1]
        exact (meanOf_const (ι := Draws M n) _).symm
      · simp only [Ψ, h1]
        exact ih h2 (by push_cast at hn; omega)
      · simp only [Ψ, h1]
        exact (meanOf_const (ι := Draws M n) _).symm

/-! ### Realisations and ensembles -/

/-- `reset(); run_once()` of L1 and L2, asking for the numbers. -/
def realA (env : Env α) (v : Variant) (L fuel : Nat) (S : Perc α) : Ask (Py (Perc α)) :=
  (Ask.all (countdown (L * L))).bind fun as =>
    match S.reset env v (choices (L * L) as) with
    | .error e => .ret (.error e)
    | .ok S1 => (loopA env v fuel S1).bind fun r => .ret ((fun R : Perc α => { R with firstRun := false }) <$> r)

theorem runOnceV_loop (hv : v = .l1 ∨ v = .l2) (fuel : Nat) (ds : Nat → Draw) (S : Perc α) :
    S.runOnceV env v fuel ds = (fun R : Perc α => { R with firstRun := false }) <$> Perc.runLoop env v fuel ds S := by
  rcases hv with rfl | rfl <;>
  · simp only [Perc.runOnceV, Perc.runOnce]
    cases Perc.runLoop env _ fuel ds S <;> rfl

theorem realA_run (G : Rng σ) (hv : v = .l1 ∨ v = .l2) (h : DefReach env v L S) (fuel : Nat) (g : σ) :
    realisationG G env v fuel S g = withState ((realA env v L fuel S).run G g) := by
  obtain ⟨R, e1, e2, _⟩ := C72_reset_default (G := G) h g
  have e3 : R.runOnceG G env v fuel (G.answers (countdown (L * L)) g).2 =
      withState (((loopA env v fuel R).bind fun r => Ask.ret ((fun R : Perc α => { R with firstRun := false }) <$> r)).run G
        (G.answers (countdown (L * L)) g).2) := by
    rw [Ask.run_bind]
    have := loopA_run (env := env) G hv fuel R (G.answers (countdown (L * L)) g).2
    rcases hv with rfl | rfl <;>
    · simp only [Perc.runOnceG, this, withState]
      generalize (loopA env _ fuel R).run G (G.answers (countdown (L * L)) g).2 = r
      rcases r with ⟨e | R, g'⟩ <;> rfl
  simp only [realisationG, e1, bind, Except.bind]
  rw [realA, Ask.run_bind, Ask.run_all, e2]
  exact e3

theorem DefReach.realA_fits (h : DefReach env v L S) (hv : v = .l1 ∨ v = .l2) (hL2 : L * L < 2 ^ 32) (fuel : Nat) :
    (realA env v L fuel S).Fits ((countdown (L * L)).length + 2 * fuel) := by
  refine (Ask.fits_all (countdown_fits hL2)).bind fun as => ?_
  obtain ⟨S1, e1, H1, _⟩ := h.live.reset (choices (L * L) as)
  rw [e1]
  exact ((H1.loopA_fits hv hL2 fuel).1.bind (e := 0) fun _ => Ask.fits_ret _).mono (by omega)

theorem DefReach.real_mean (h : DefReach env v L S) (hv : v = .l1 ∨ v = .l2) (hM : 0 < M) (hd : ∀ w, 0 < w → w ≤ L * L → w ∣ M) (fuel : Nat)
    (f : Py (Perc α) → ℝ) : (realA env v L fuel S).mean f =
      meanOf fun p : DrawVec (L * L) × Draws M (5 * (L * L)) => f (realisation env v S ⟨p.1.draws, p.2.seq, fuel⟩) := by
  rw [meanOf_pair, realA, Ask.mean_bind]
  rw [← mean_shuffle fun d => meanOf fun y : Draws M (5 * (L * L)) => f (realisation env v S ⟨d, y.seq, fuel⟩)]
  congr 1
  funext as
  obtain ⟨S1, e1, H1, hb, _⟩ := h.live.reset (choices (L * L) as)
  simp only [realisation, e1, bind, Except.bind, runOnceV_loop hv]
  rw [Ask.mean_bind]
  refine H1.loop_mean hv hM hd (fun r => f ((fun R : Perc α => { R with firstRun := false }) <$> r)) fuel ?_
  rw [hb]
  rcases hv with rfl | rfl <;> simp [initBudget]

/-- What the loop over the realisations does with a realisation. -/
def gather (env : Env α) (pl : Bool) (S : Perc α) (data : Option (List (List α))) : Py (List (List α)) := do
  let aaa ← S.getDataArray
  if pl then
    let _ ← pyGetI aaa (-1)
  match data with
  | none => return aaa
  | some d => addArrays env d aaa

theorem ensembleLoop_gather (pl : Bool) (r : RunDraws) (rs : List RunDraws) (S : Perc α) (data : Option (List (List α))) (crit : List (CritRow α)) :
    ensembleLoop env v pl (r :: rs) S data crit = (do
      let R ← realisation env v S r
      let d ← gather env pl R data
      ensembleLoop env v pl rs R (some d) (crit ++ [critRow env R])) := by
  simp only [ensembleLoop, gather]
  cases realisation env v S r with
  | error x => rfl
  | ok R =>
    simp only [bind, Except.bind]
    cases R.getDataArray with
    | error x => rfl
    | ok aaa =>
      cases pl with
      | false =>
        cases data with
        | none => rfl
        | some d =>
          simp only [Bool.false_eq_true, if_false]
      | true =>
        simp only [if_true]
        cases pyGetI aaa (-1) with
        | error x => rfl
        | ok y => cases data <;> rfl

theorem ensembleLoopG_gather (G : Rng σ) (pl : Bool) (fuel n : Nat) (S : Perc α) (g : σ) (data : Option (List (List α))) (crit : List (CritRow α)) :
    ensembleLoopG G env v pl fuel (n + 1) S g data crit = (do
      let R ← realisationG G env v fuel S g
      let d ← gather env pl R.1 data
      ensembleLoopG G env v pl fuel n R.1 R.2 (some d) (crit ++ [critRow env R.1])) := by
  simp only [ensembleLoopG, gather]
  cases realisationG G env v fuel S g with
  | error x => rfl
  | ok R =>
    simp only [bind, Except.bind]
    cases R.1.getDataArray with
    | error x => rfl
    | ok aaa =>
      cases pl with
      | false =>
        cases data with
        | none => rfl
        | some d =>
          simp only [Bool.false_eq_true, if_false]
      | true =>
        simp only [if_true]
        cases pyGetI aaa (-1) with
        | error x => rfl
        | ok y => cases data <;> rfl

/-- The loop over the realisations, asking for the numbers. -/
def ensembleA (env : Env α) (v : Variant) (pl : Bool) (L fuel : Nat) : Nat → Perc α → Option (List (List α)) → List (CritRow α) →
    Ask (Py (Perc α × Option (List (List α)) × List (CritRow α)))
  | 0, S, data, crit => .ret (.ok (S, data, crit))
  | n + 1, S, data, crit => (realA env v L fuel S).bind fun r =>
    match r with
    | .error e => .ret (.error e)
    | .ok R =>
      match gather env pl R data with
      | .error e => .ret (.error e)
      | .ok d => ensembleA env v pl L fuel n R (some d) (crit ++ [critRow env R])

/-- The results of a realisation are those of the model for some numbers. -/
theorem DefReach.realA_ends (h : DefReach env v L S) (hv : v = .l1 ∨ v = .l2) (fuel : Nat) :
    (realA env v L fuel S).Ends fun r => ∀ R, r = .ok R → DefReach env v L R := by
  refine (Ask.ends_true _).bind fun as _ => ?_
  obtain ⟨S1, e1, H1, _⟩ := h.live.reset (choices (L * L) as)
  rw [e1]
  have key : ∀ (fuel : Nat) {T : Perc α}, (loopA env v fuel T).Ends fun r => ∃ ds, Perc.runLoop env v fuel ds T = r := by
    intro fuel
    induction fuel with
    | zero => intro T; exact ⟨fun _ => ⟨0, 0⟩, rfl⟩
    | succ fuel ih =>
      intro T
      refine (Ask.ends_true _).bind fun d _ => ?_
      have hds : ∀ ds : Nat → Draw, (fun i => (fun j : Nat => if j = 0 then d else ds (j - 1)) (i + 1)) = ds := fun ds => rfl
      rcases ht : SqPerc.turn env (T.placeOneSite env v d) with e | ⟨R, more⟩
      · refine ⟨fun _ => d, ?_⟩
        rw [runLoop_turn, ht]
      · cases more with
        | false =>
          refine ⟨fun _ => d, ?_⟩
          rw [runLoop_turn, ht]
        | true =>
          have := (ih (T := R)).bind (g := Ask.ret) (Q := fun r => ∃ ds, Perc.runLoop env v (fuel + 1) ds T = r) fun r hr => by
            obtain ⟨ds, hr⟩ := hr
            refine ⟨fun j => if j = 0 then d else ds (j - 1), ?_⟩
            rw [runLoop_turn]
            simp only [if_true, ht]
            exact hr
          have bind_ret : ∀ p : Ask (Py (Perc α)), p.bind Ask.ret = p := by
            intro p
            induction p with
            | ret b => rfl
            | ask n k ih => exact congrArg (Ask.ask n) (funext ih)
          rw [bind_ret] at this
          exact this
  refine (key fuel).bind fun r hr => ?_
  obtain ⟨ds, hr⟩ := hr
  intro R hR
  refine h.after_realisation (r := ⟨choices (L * L) as, ds, fuel⟩) ?_
  simp only [realisation, e1, bind, Except.bind, runOnceV_loop hv]
  rw [hr]
  exact hR

theorem ensembleA_run (G : Rng σ) (hv : v = .l1 ∨ v = .l2) (pl : Bool) (fuel n : Nat) :
    ∀ {S : Perc α} (_ : DefReach env v L S) (g : σ) (data : Option (List (List α))) (crit : List (CritRow α)),
    ensembleLoopG G env v pl fuel n S g data crit = ((ensembleA env v pl L fuel n S data crit).run G g).1 := by
  induction n with
  | zero => intro S _ g data crit; rfl
  | succ n ih =>
    intro S h g data crit
    have hend := (h.realA_ends hv fuel).run G g
    rw [ensembleLoopG_gather, realA_run G hv h, ensembleA, Ask.run_bind]
    generalize (realA env v L fuel S).run G g = r at hend
    rcases r with ⟨e | R, g'⟩
    · rfl
    · simp only [withState, Functor.map, Except.map, bind, Except.bind]
      cases gather env pl R data with
      | error x => rfl
      | ok d => exact ih (hend R rfl) _ _ _

theorem DefReach.ensembleA_fits (hv : v = .l1 ∨ v = .l2) (hL2 : L * L < 2 ^ 32) (pl : Bool) (fuel n : Nat) :
    ∀ {S : Perc α} (_ : DefReach env v L S) (data : Option (List (List α))) (crit : List (CritRow α)),
    (ensembleA env v pl L fuel n S data crit).Fits (n * ((countdown (L * L)).length + 2 * fuel)) := by
  induction n with
  | zero => intro S _ data crit; exact Ask.fits_ret _
  | succ n ih =>
    intro S h data crit
    rw [Nat.succ_mul, Nat.add_comm]
    refine (h.realA_fits hv hL2 fuel).bind_ends (h.realA_ends hv fuel) fun r hr => ?_
    cases r with
    | error e => exact Ask.fits_ret _
    | ok R =>
      simp only
      cases gather env pl R data with
      | error x => exact Ask.fits_ret _
      | ok d => exact ih (hr R rfl) _ _

/-- The random numbers of `E` realisations of L1 and L2, those of the shuffles and those of the placements. -/
def mixedDraws {N n : Nat} (fuel : Nat) (z : Fin E → DrawVec N × Draws M n) : List RunDraws := List.ofFn fun i => ⟨(z i).1.draws, (z i).2.seq, fuel⟩

theorem DefReach.ensemble_mean (hv : v = .l1 ∨ v = .l2) (hM : 0 < M) (hd : ∀ w, 0 < w → w ≤ L * L → w ∣ M) (pl : Bool) (fuel : Nat)
    (f : Py (Perc α × Option (List (List α)) × List (CritRow α)) → ℝ) (n : Nat) :
    ∀ {S : Perc α} (_ : DefReach env v L S) (data : Option (List (List α))) (crit : List (CritRow α)),
    (ensembleA env v pl L fuel n S data crit).mean f =
      meanOf fun z : Fin n → DrawVec (L * L) × Draws M (5 * (L * L)) => f (ensembleLoop env v pl (mixedDraws fuel z) S data crit) := by
  have hne := draws_nonempty (n := 5 * (L * L)) hM
  induction n with
  | zero =>
    intro S _ data crit
    refine Eq.trans ?_ (meanOf_congr fun z => ?_ : (meanOf fun z : Fin 0 → DrawVec (L * L) × Draws M (5 * (L * L)) => f (.ok (S, data, crit))) = _)
    · exact (meanOf_const _).symm
    · rfl
  | succ n ih =>
    intro S h data crit
    rw [meanOf_cons, ensembleA, Ask.mean_bind, h.real_mean hv hM hd]
    refine meanOf_congr fun p => ?_
    simp only [mixedDraws, List.ofFn_succ, Fin.cons_zero, Fin.cons_succ, ensembleLoop_gather]
    cases hr : realisation env v S ⟨p.1.draws, p.2.seq, fuel⟩ with
    | error x => exact (meanOf_const _).symm
    | ok R =>
      simp only [bind, Except.bind]
      cases gather env pl R data with
      | error x => exact (meanOf_const _).symm
      | ok d => exact ih (h.after_realisation hr) _ _

/-! ### C108 for L1 and L2 -/

/-- C108 for L1 and L2, from the words to the results: any event about the results of the ensemble has under uniform words the probability that it
has when the choices of the shuffles are uniform and every call of `place_one_site` gets a uniform number below `M` (which it takes modulo the
number of candidates) and a uniform number below 4, all independent; `M` is any number that all numbers of candidates divide. -/
theorem C108_growth (seed : Int → Nat → Word) (env : Env α) (hv : v = .l1 ∨ v = .l2) (hL : 0 < L) (hL2 : L * L < 2 ^ 32) (hM : 0 < M)
    (hd : ∀ w, 0 < w → w ≤ L * L → w ∣ M) (pl : Bool) (fuel : Nat) (B : Set (Py (List (List α) × List (CritRow α)))) :
    uniformWords {w | runEnsembleG (wordRng seed) env v pl fuel L E none w ∈ B} =
      ENNReal.ofReal (meanOf fun x0 : DrawVec (L * L) => meanOf fun z : Fin E → DrawVec (L * L) × Draws M (5 * (L * L)) =>
        ind (runEnsemble env v pl L x0.draws (mixedDraws fuel z) ∈ B)) := by
  let fin : Py (Perc α × Option (List (List α)) × List (CritRow α)) → Py (List (List α) × List (CritRow α)) := fun r => do
    let (_, data, crit) ← r
    match data with
    | none => .error .typeError
    | some d => return (divArray env d E, crit)
  let prog : Ask (Py (Perc α × Option (List (List α)) × List (CritRow α))) := (Ask.all (countdown (L * L))).bind fun as =>
    match Perc.new env L (choices (L * L) as) with
    | .error e => .ret (.error e)
    | .ok S => ensembleA env v pl L fuel E S none []
  have hrun : ∀ w, runEnsembleG (wordRng seed) env v pl fuel L E none w ∈ B ↔ (prog.run (wordRng seed) w).1 ∈ {r | fin r ∈ B} := by
    intro w
    obtain ⟨S, e, e'⟩ := newForRun_choices (G := wordRng seed) (env := env) hL none w
    have e1 : (prog.run (wordRng seed) w).1 = ensembleLoopG (wordRng seed) env v pl fuel E S ((wordRng seed).answers (countdown (L * L)) w).2 none [] := by
      simp only [prog, Ask.run_bind, Ask.run_all]
      have e'' : Perc.new env L (choices (L * L) ((wordRng seed).answers (countdown (L * L)) w).1) = .ok S := e'
      rw [e'', ensembleA_run (wordRng seed) hv pl fuel E (.new e'')]
    have e2 : runEnsembleG (wordRng seed) env v pl fuel L E none w = fin (prog.run (wordRng seed) w).1 := by
      rw [e1]
      simp only [runEnsembleG, e, bind, Except.bind, fin]
      rfl
    rw [e2]
    rfl
  simp only [hrun]
  have hfits : prog.Fits ((countdown (L * L)).length + E * ((countdown (L * L)).length + 2 * fuel)) := by
    refine (Ask.fits_all (countdown_fits hL2)).bind fun as => ?_
    obtain ⟨rev, e, _⟩ := new_ok env hL (choices (L * L) as)
    rw [e]
    exact DefReach.ensembleA_fits hv hL2 pl fuel E (.new e) _ _
  rw [Ask.law seed hfits]
  congr 1
  simp only [prog, Ask.mean_bind]
  rw [← mean_shuffle fun d => meanOf fun z : Fin E → DrawVec (L * L) × Draws M (5 * (L * L)) => ind (runEnsemble env v pl L d (mixedDraws fuel z) ∈ B)]
  congr 1
  funext as
  obtain ⟨rev, e, _⟩ := new_ok env hL (choices (L * L) as)
  have h0 := DefReach.new (v := v) e
  rw [e]
  refine (h0.ensemble_mean hv hM hd pl fuel (fun r => ind (r ∈ {r | fin r ∈ B})) E none []).trans (meanOf_congr fun z => ?_)
  have hlen : (mixedDraws fuel z).length = E := List.length_ofFn
  have e3 : runEnsemble env v pl L (choices (L * L) as) (mixedDraws fuel z) = fin (ensembleLoop env v pl (mixedDraws fuel z)
      { freshPerc env L with siteIds := pyShuffle (choices (L * L) as) (List.range (L * L)), revIds := rev } none []) := by
    simp only [runEnsemble, e, bind, Except.bind, fin, hlen]
    rfl
  rw [e3]
  rfl

theorem meanOf_arrow_pair {A B : Type} [Fintype A] [Fintype B] (F : (Fin E → A) → (Fin E → B) → ℝ) :
    meanOf (fun z : Fin E → A × B => F (fun i => (z i).1) fun i => (z i).2) = meanOf fun x => meanOf fun y => F x y := by
  rw [← meanOf_pair fun p : (Fin E → A) × (Fin E → B) => F p.1 p.2]
  unfold meanOf
  rw [Fintype.sum_equiv (Equiv.arrowProdEquivProdArrow (Fin E) (fun _ => A) fun _ => B) (fun z => F (fun i => (z i).1) fun i => (z i).2)
    (fun p => F p.1 p.2) fun z => rfl, Fintype.card_congr (Equiv.arrowProdEquivProdArrow (Fin E) (fun _ => A) fun _ => B)]

/-- C108 for L1 and L2, from the words to the files, with the averages over the growth process of the specification. -/
theorem C108_files_l1l2 (seed : Int → Nat → Word) {lg : Dbl → Dbl} (hlg : Dbl.GoodLog lg (2⁻¹ ^ 52)) (hv : v = .l1 ∨ v = .l2) (hL0 : 0 < L)
    (hL : L ≤ 10 ^ 4) (hM : 0 < M) (hd : ∀ w, 0 < w → w ≤ L * L → w ∣ M) (hE0 : 0 < E) (hE : E ≤ 4 * 10 ^ 5) (pl : Bool) {fuel : Nat}
    (hf : 5 * (L * L) < fuel) {header : Text} (hh : '\n' ∉ header) (n : Int) {ε : ℝ} (hε : 0 < ε) :
    ∃ m : Nat → Nat → ℝ,
      (∀ k < L * L, m k 1 = meanOf (fun y : Draws M (5 * (L * L)) => shannon L (· ∈ (runOrder L v.deep y).take (k + 1))) ∧
        m k 2 = meanOf fun y : Draws M (5 * (L * L)) => (seqLargest L ((runOrder L v.deep y).take (k + 1)) : ℝ) / (2 * (L * L) : Nat)) ∧
      uniformWords {w | ¬∃ data crit T, runEnsembleG (wordRng seed) ⟨so, Dbl.arith lg⟩ v pl fuel L E none w = .ok (data, crit) ∧
        readTable (saveWith Dbl.fmt header ((FileData.table n data).rows ⟨so, Dbl.arith lg⟩)) = some T ∧
        ∀ k < L * L, ∀ c, 1 ≤ c → c < 4 → |fileEntry T k c - m k c| < (ε + fileTol L) * colRange L c} ≤
        ENNReal.ofReal (6 * (L * L : Nat) * Real.exp (-(2 * E * ε ^ 2))) ∧
      (3 ≤ L → uniformWords {w | ¬∃ data crit C, runEnsembleG (wordRng seed) ⟨so, Dbl.arith lg⟩ v pl fuel L E none w = .ok (data, crit) ∧
        readTable (saveWith Dbl.fmt header ((FileData.critical n crit).rows ⟨so, Dbl.arith lg⟩)) = some C ∧
        |filePc C - meanOf fun y : Draws M (5 * (L * L)) => wrapStage L (runOrder L v.deep y)| < ε + 1 / 10 ^ 10} ≤
        ENNReal.ofReal (2 * Real.exp (-(2 * E * ε ^ 2)))) := by
  have hL2 : L * L < 2 ^ 32 := lt_of_le_of_lt (Nat.mul_le_mul hL hL) (by norm_num)
  let sh : (Fin E → DrawVec (L * L)) → Nat → Nat → Nat := fun x i => if h : i < E then (x ⟨i, h⟩).draws else fun _ => 0
  have hsh : ∀ (x : Fin E → DrawVec (L * L)) (y : Fin E → Draws M (5 * (L * L))), mixedDraws fuel (fun i => (x i, y i)) = growthDraws (sh x) fuel y := by
    intro x y
    unfold mixedDraws growthDraws
    congr 1
    funext i
    simp only [sh, dif_pos i.2]
  choose T C m h1 h2 h3 h4 h5 using fun (x0 : DrawVec (L * L)) (x : Fin E → DrawVec (L * L)) =>
    C107_l1l2 (so := so) (M := M) hlg hv hL0 hL hM hE0 hE pl x0.draws (sh x) hf hh n hε
  obtain ⟨x0'⟩ : Nonempty (DrawVec (L * L)) := inferInstance
  have hm : ∀ x0 x, m x0 x = m x0' fun _ => x0' := by
    intro x0 x
    funext k c
    rw [h5 x0, h5 x0']
  have law : ∀ (B : Set (Py (List (List Dbl) × List (CritRow Dbl)))) (q : ℝ),
      (∀ (x0 : DrawVec (L * L)) (x : Fin E → DrawVec (L * L)), meanOf (fun y : Fin E → Draws M (5 * (L * L)) => ind (runEnsemble ⟨so, Dbl.arith lg⟩ v pl L x0.draws (growthDraws (sh x) fuel y) ∈ B)) ≤ q) →
      uniformWords {w | runEnsembleG (wordRng seed) ⟨so, Dbl.arith lg⟩ v pl fuel L E none w ∈ B} ≤ ENNReal.ofReal q := by
    intro B q hq
    rw [C108_growth (E := E) seed ⟨so, Dbl.arith lg⟩ hv hL0 hL2 hM hd pl fuel B]
    refine ENNReal.ofReal_le_ofReal ((meanOf_le fun x0 => ?_).trans (le_of_eq (meanOf_const q)))
    refine le_trans (le_of_eq (meanOf_arrow_pair fun (x : Fin E → DrawVec (L * L)) (y : Fin E → Draws M (5 * (L * L))) =>
      ind (runEnsemble ⟨so, Dbl.arith lg⟩ v pl L x0.draws (mixedDraws fuel fun i => (x i, y i)) ∈ B))) ?_
    refine (meanOf_le fun x => ?_).trans (le_of_eq (meanOf_const q))
    simp only [hsh]
    exact hq x0 x
  refine ⟨m x0' fun _ => x0', h2 x0' _, ?_, fun hL3 => ?_⟩
  · refine law {r | ¬∃ data crit T, r = .ok (data, crit) ∧
        readTable (saveWith Dbl.fmt header ((FileData.table n data).rows ⟨so, Dbl.arith lg⟩)) = some T ∧
        ∀ k < L * L, ∀ c, 1 ≤ c → c < 4 → |fileEntry T k c - m x0' (fun _ => x0') k c| < (ε + fileTol L) * colRange L c} _ fun x0 x => ?_
    refine (meanOf_le fun y => ind_mono fun hn => ?_).trans (h3 x0 x)
    by_contra hc
    obtain ⟨data, crit, g1, _, g3, _⟩ := h1 x0 x y
    refine hn ⟨data, crit, T x0 x y, g1, g3, fun k hk c hc1 hc4 => ?_⟩
    by_contra hge
    refine hc ⟨k, c, hk, hc1, hc4, ?_⟩
    rw [hm x0]
    exact le_of_not_gt hge
  · refine law {r | ¬∃ data crit C, r = .ok (data, crit) ∧
        readTable (saveWith Dbl.fmt header ((FileData.critical n crit).rows ⟨so, Dbl.arith lg⟩)) = some C ∧
        |filePc C - meanOf fun y : Draws M (5 * (L * L)) => wrapStage L (runOrder L v.deep y)| < ε + 1 / 10 ^ 10} _ fun x0 x => ?_
    refine (meanOf_le fun y => ind_mono fun hn => ?_).trans (h4 x0 x hL3)
    by_contra hc
    obtain ⟨data, crit, g1, _, _, g4⟩ := h1 x0 x y
    exact hn ⟨data, crit, C x0 x y, g1, g4, lt_of_not_ge hc⟩

/-! ### Cases -/

/-- A number below 3: the upper two bits of the first word are `3`, too large, so it is skipped; those of the second are `1`. -/
example (seed : Int → Nat → Word) : ((wordRng seed).below 3 fun t => if t = 0 then ⟨3 * 2 ^ 30, by norm_num⟩ else ⟨2 ^ 30, by norm_num⟩).1 = 1 := by
  rw [C108_request seed (k := 2) (t := 1) (by norm_num) (by norm_num) _ (by decide) (by decide)]
  decide

/-- A new object of length 2 has the order `[2, 0, 3, 1]` with probability 1/24. -/
example (seed : Int → Nat → Word) (env : Env α) :
    uniformWords {w | ∃ S w', Perc.newG (wordRng seed) env 2 none w = .ok (S, w') ∧ S.siteIds = [2, 0, 3, 1]} = ENNReal.ofReal (1 / 24) := by
  have := C108_new seed env (L := 2) (by norm_num) (by norm_num) (q := [2, 0, 3, 1]) (by decide)
  rwa [show (((2 * 2 : Nat).factorial : Nat) : ℝ) = 24 by norm_num [Nat.factorial]] at this

/-- The two numbers of a selection with 7 candidates whose candidate is occupied: each of the 28 outcomes has probability 1/28. -/
example (seed : Int → Nat → Word) : uniformWords {w | ((wordRng seed).answers [7, 4] w).1 = [5, 2]} = ENNReal.ofReal (1 / 28) := by
  have := C108_answers seed (ns := [7, 4]) (as := [5, 2]) (by decide) (by decide)
  rwa [show (([7, 4] : List Nat).prod : ℝ) = 28 by norm_num] at this

/-- L2 of length 100 with 3000 realisations: some number `M` meets the hypothesis. -/
example (seed : Int → Nat → Word) {lg : Dbl → Dbl} (hlg : Dbl.GoodLog lg (2⁻¹ ^ 52)) {header : Text} (hh : '\n' ∉ header) :=
  C108_files_l1l2 (so := so) (v := .l2) (L := 100) (E := 3000) (M := (100 * 100).factorial) seed hlg (.inr rfl) (by norm_num) (by norm_num)
    (Nat.factorial_pos _) (fun _ h hw => Nat.dvd_factorial h hw) (by norm_num) (by norm_num) false (fuel := 50001) (by norm_num) hh 0
    (ε := 6 / 100) (by norm_num)

end SqPerc
