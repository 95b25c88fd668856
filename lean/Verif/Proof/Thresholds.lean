import Verif.Proof.Peierls
/-
The two exponential bounds: below the density `√2 - 1` random sites hardly ever wrap, above `3 - √5` they almost always do.
-/
namespace SqPerc

variable {L : Nat} {em : Nat → Prop}

theorem Rules.mem_lists {δ σ : Type} [DecidableEq δ] (A : Rules δ σ) {f : Nat → δ} {st : Nat → σ} (k : Nat) : ∀ i,
    (∀ j < i + k, f j ∈ A.allowed (st j)) → (∀ j, A.next (st j) (f j) = st (j + 1)) → (List.range' i k).map f ∈ A.lists k (st i) := by
  induction k with
  | zero => intro i _ _; exact Finset.mem_singleton.2 rfl
  | succ k ih =>
    intro i h1 h2
    rw [List.range'_succ, List.map_cons, Rules.lists, Finset.mem_biUnion]
    refine ⟨f i, h1 i (by omega), Finset.mem_image.2 ⟨_, ?_, rfl⟩⟩
    rw [h2 i]
    exact ih (i + 1) (fun j hj => h1 j (by omega)) h2

/-- The sites of a shortest closed path, as a trail. -/
theorem trail_shortest {δ : Type} {vec : δ → Int × Int} {n k : Nat} (hk : k < n) {u : Nat → Int × Int} {f : Nat → δ}
    (he : ∀ i ≤ n, em (siteAt L (u i))) (hf : ∀ j < k, u (j + 1) = u j + vec (f j))
    (hd : ∀ i < n, ∀ j < n, siteAt L (u i) = siteAt L (u j) → i = j) :
    (trail L vec (u 0) ((List.range' 0 k).map f)).Nodup ∧ ∀ s ∈ trail L vec (u 0) ((List.range' 0 k).map f), em s := by
  rw [trail_points k 0 (fun j hj => hf j (by omega))]
  constructor
  · refine List.Nodup.map_on ?_ (List.nodup_range' (step := 1))
    intro x hx y hy
    rw [List.mem_range'_1] at hx hy
    exact hd x (by omega) y (by omega)
  · intro s hs
    obtain ⟨j, hj, rfl⟩ := List.mem_map.1 hs
    rw [List.mem_range'_1] at hj
    exact he j (by omega)

/-! ### Occupied sites -/

instance : Fintype Dir := ⟨⟨([.right, .down, .left, .up] : List Dir), by decide⟩, fun dir => by cases dir <;> decide⟩

/-- Steps to nearest neighbours: no step back, and no step back after one step to the side. -/
def straightRules : Rules Dir (Option (Dir × Dir)) where
  allowed
    | none => Finset.univ
    | some (d, e) => Finset.univ.filter fun x => x ≠ d.opp ∧ x ≠ e.opp
  next
    | none, x => some (x, x)
    | some (d, _), x => some (x, d)

/-- The weight of a state. -/
noncomputable def straightWeight : Option (Dir × Dir) → ℝ
  | none => 8 - 4 * √2
  | some (d, e) => if d = e then √2 else 1

theorem straight_count (k : Nat) : ((straightRules.lists k none).card : ℝ) ≤ (8 - 4 * √2) * (1 + √2) ^ k := by
  have h2 : √2 * √2 = 2 := Real.mul_self_sqrt (by norm_num)
  have hpos : 1 ≤ √2 := by rw [Real.one_le_sqrt]; norm_num
  have hlt : √2 ≤ 3 / 2 := by
    rw [Real.sqrt_le_left (by norm_num)]
    norm_num
  refine straightRules.card_le (by positivity) straightWeight ?_ ?_ k none
  · rintro (_ | ⟨d, e⟩)
    · show 1 ≤ 8 - 4 * √2
      linarith
    · show 1 ≤ if d = e then √2 else 1
      split
      · exact hpos
      · exact le_rfl
  · rintro (_ | ⟨d, e⟩)
    · have : (∑ x ∈ straightRules.allowed none, straightWeight (straightRules.next none x)) = 4 * √2 := by
        show (∑ x : Dir, if x = x then √2 else 1) = _
        simp only [if_true, Finset.sum_const, nsmul_eq_mul]
        rfl
      rw [this]
      show 4 * √2 ≤ (1 + √2) * (8 - 4 * √2)
      nlinarith
    · have : (∑ x ∈ straightRules.allowed (some (d, e)), straightWeight (straightRules.next (some (d, e)) x)) =
          ((Finset.univ.filter fun x : Dir => x ≠ d.opp ∧ x ≠ e.opp).filter (· = d)).card * √2 +
          ((Finset.univ.filter fun x : Dir => x ≠ d.opp ∧ x ≠ e.opp).filter (¬ · = d)).card := by
        show (∑ x ∈ Finset.univ.filter fun x : Dir => x ≠ d.opp ∧ x ≠ e.opp, if x = d then √2 else 1) = _
        rw [Finset.sum_ite, Finset.sum_const, Finset.sum_const, nsmul_eq_mul, nsmul_eq_mul, mul_one]
      rw [this]
      show _ ≤ (1 + √2) * if d = e then √2 else 1
      by_cases hde : d = e
      · subst hde
        rw [if_pos rfl]
        have c1 : ((Finset.univ.filter fun x : Dir => x ≠ d.opp ∧ x ≠ d.opp).filter (· = d)).card = 1 := by clear this; revert d; decide
        have c2 : ((Finset.univ.filter fun x : Dir => x ≠ d.opp ∧ x ≠ d.opp).filter (¬ · = d)).card = 2 := by clear this c1; revert d; decide
        rw [c1, c2]
        push_cast
        nlinarith
      · rw [if_neg hde]
        by_cases hop : e = d.opp
        · subst hop
          have c1 : ((Finset.univ.filter fun x : Dir => x ≠ d.opp ∧ x ≠ d.opp.opp).filter (· = d)).card = 0 := by
            clear hde this; revert d; decide
          have c2 : ((Finset.univ.filter fun x : Dir => x ≠ d.opp ∧ x ≠ d.opp.opp).filter (¬ · = d)).card = 2 := by
            clear hde this c1; revert d; decide
          rw [c1, c2]
          push_cast
          linarith
        · have c : ∀ d e : Dir, d ≠ e → e ≠ d.opp → ((Finset.univ.filter fun x : Dir => x ≠ d.opp ∧ x ≠ e.opp).filter (· = d)).card = 1 ∧
            ((Finset.univ.filter fun x : Dir => x ≠ d.opp ∧ x ≠ e.opp).filter (¬ · = d)).card = 1 := by decide
          obtain ⟨c1, c2⟩ := c d e hde hop
          rw [c1, c2]
          push_cast
          linarith

/-- A walk over occupied sites in the plane. -/
theorem Walk.gpath (hL : 0 < L) {p : Int × Int} {t : Nat} {v : Int × Int} (h : Walk L em (siteAt L p) t v) :
    ∃ n, GPath (fun v => ∃ d : Dir, v = d.vec) L em n p (p + v) := by
  generalize hs : siteAt L p = s at h
  induction h with
  | nil h => exact ⟨0, by rw [add_zero]; exact .nil (by rwa [hs])⟩
  | @snoc t v d hw ho ih =>
    obtain ⟨n, hn⟩ := ih
    refine ⟨n + 1, hn.snoc ?_ ⟨d, ?_⟩⟩
    · have e : siteAt L (p + v) = t := by
        subst hs
        exact hw.lift hL
      rw [← add_assoc, siteAt_step hL, e]
      exact ho
    · abel

/-- The steps of a path without shortcuts, as a trail of nearest-neighbour steps. -/
theorem straight_trail {n k : Nat} {T : Finset Nat} {u : Nat → Int × Int} (hk : k ≤ n) (he : ∀ i ≤ n, siteAt L (u i) ∈ T)
    (hst : ∀ i < n, ∃ d : Dir, u (i + 1) - u i = d.vec) (hd : ∀ i ≤ k, ∀ j ≤ k, siteAt L (u i) = siteAt L (u j) → i = j)
    (hmin : ∀ i k m, i + k ≤ n → GPath (fun v => ∃ d : Dir, v = d.vec) L (· ∈ T) m (u i) (u (i + k)) → k ≤ m) :
    ∃ ds ∈ straightRules.lists k none, (trail L Dir.vec (u 0) ds).Nodup ∧ ∀ s ∈ trail L Dir.vec (u 0) ds, s ∈ T := by
  have hex : ∀ i, ∃ d : Dir, i < n → u (i + 1) - u i = d.vec := fun i => by
    by_cases hi : i < n
    · obtain ⟨d, hd⟩ := hst i hi
      exact ⟨d, fun _ => hd⟩
    · exact ⟨.right, fun h => absurd h hi⟩
  choose f hf using hex
  have hu : ∀ i < n, u (i + 1) = u i + (f i).vec := fun i hi => by rw [← hf i hi]; abel
  have back : ∀ d : Dir, d.vec + d.opp.vec = 0 := by intro d; cases d <;> rfl
  have h1 : ∀ i, i + 1 < n → f (i + 1) ≠ (f i).opp := by
    intro i hi hc
    have := hmin i 2 0 (by omega) (by
      have e2 : u (i + 2) = u i := by rw [hu (i + 1) hi, hu i (by omega), hc, add_assoc, back, add_zero]
      rw [e2]
      exact .nil (he i (by omega)))
    omega
  have h2 : ∀ i, i + 2 < n → f (i + 2) ≠ (f i).opp := by
    intro i hi hc
    have := hmin i 3 1 (by omega) (.snoc (.nil (he i (by omega))) (he (i + 3) (by omega)) ⟨f (i + 1), by
      rw [hu (i + 2) hi, hu (i + 1) (by omega), hu i (by omega), hc, show u i + (f i).vec + (f (i + 1)).vec + (f i).opp.vec - u i =
        (f i).vec + (f i).opp.vec + (f (i + 1)).vec by abel, back, zero_add]⟩)
    omega
  refine ⟨(List.range' 0 k).map f, ?_, ?_⟩
  · refine straightRules.mem_lists (st := fun i => match i with | 0 => none | 1 => some (f 0, f 0) | (i + 2) => some (f (i + 1), f i)) k 0 ?_ ?_
    · intro j hj
      match j with
      | 0 => exact Finset.mem_univ _
      | 1 =>
        have := h1 0 (by omega)
        simp only [straightRules, Finset.mem_filter, Finset.mem_univ, true_and]
        exact ⟨this, this⟩
      | j + 2 =>
        simp only [straightRules, Finset.mem_filter, Finset.mem_univ, true_and]
        exact ⟨h1 (j + 1) (by omega), h2 j (by omega)⟩
    · intro j
      match j with
      | 0 => rfl
      | 1 => rfl
      | j + 2 => rfl
  · rw [trail_points k 0 (fun j hj => hu j (by omega))]
    constructor
    · refine List.Nodup.map_on ?_ (List.nodup_range' (step := 1))
      intro x hx y hy
      rw [List.mem_range'_1] at hx hy
      exact hd x (by omega) y (by omega)
    · intro s hs
      obtain ⟨j, hj, rfl⟩ := List.mem_map.1 hs
      rw [List.mem_range'_1] at hj
      exact he j (by omega)

/-- Occupied sites that wrap contain an allowed path of `L` different sites. -/
theorem wraps_trail (hL : 0 < L) {T : Finset Nat} (hT : T ⊆ Finset.range (L * L)) (h : Wraps L (· ∈ T)) :
    ∃ p, ∃ ds ∈ straightRules.lists (L - 1) none, (trail L Dir.vec p ds).Nodup ∧ ∀ s ∈ trail L Dir.vec p ds, s ∈ T := by
  obtain ⟨s, v, hv, hw⟩ := h
  have hs : s < L * L := by
    exact Finset.mem_range.1 (hT hw.occ_left)
  obtain ⟨p, rfl⟩ : ∃ p, siteAt L p = s := ⟨_, siteAt_rc hs⟩
  obtain ⟨m, hm⟩ := hw.gpath hL
  have e := hw.lift hL
  obtain ⟨n, u, hn, he, hst, hd, hmin⟩ := shortest_closed (D := fun v => ∃ d : Dir, v = d.vec) (em := (· ∈ T)) hL (by
    rintro _ ⟨d, rfl⟩
    cases d <;> simp [Near, Dir.vec]) ⟨m, p, p + v, e.symm, by rwa [add_sub_cancel_left], hm⟩
  obtain ⟨ds, h1, h2⟩ := straight_trail (T := T) (u := u) (k := L - 1) (by omega) he hst
    (fun i hi j hj => hd i (by omega) j (by omega)) hmin
  exact ⟨u 0, ds, h1, h2⟩

/-- The chance that `n` random sites wrap. -/
theorem wraps_unlikely (hL : 0 < L) {n : Nat} (hn : n ≤ L * L) :
    micro (L * L) n (fun T => ind (Wraps L (· ∈ T))) ≤ (L : ℝ) ^ 2 * ((1 + √2) * ((n : ℝ) / (L * L : Nat))) ^ L := by
  have h2 : √2 * √2 = 2 := Real.mul_self_sqrt (by norm_num)
  have hpos : 1 ≤ √2 := by rw [Real.one_le_sqrt]; norm_num
  have := micro_trails hL straightRules none Dir.vec (k := L - 1) hn (P := fun T => Wraps L (· ∈ T)) (fun T hT h => wraps_trail hL hT h)
  refine this.trans ?_
  rw [Nat.sub_add_cancel hL, mul_pow, ← mul_assoc]
  refine mul_le_mul_of_nonneg_right ?_ (by positivity)
  rw [show ((L * L : Nat) : ℝ) = (L : ℝ) ^ 2 by push_cast; ring]
  refine mul_le_mul_of_nonneg_left ?_ (by positivity)
  refine (straight_count (L - 1)).trans ?_
  have e : (1 + √2) ^ L = (1 + √2) * (1 + √2) ^ (L - 1) := by
    rw [← pow_succ', Nat.sub_add_cancel hL]
  rw [e]
  refine mul_le_mul_of_nonneg_right ?_ (by positivity)
  have : 7 / 5 ≤ √2 := Real.le_sqrt_of_sq_le (by norm_num)
  linarith

/-! ### Empty sites -/

/-- The eight straight and diagonal steps. -/
def roundVec : Fin 8 → Int × Int := ![(0, 1), (1, 1), (1, 0), (1, -1), (0, -1), (-1, -1), (-1, 0), (-1, 1)]

instance (p q : Int × Int) : Decidable (Near p q) := by unfold Near; infer_instance

/-- Straight and diagonal steps: no two steps that one step could replace. -/
def roundRules : Rules (Fin 8) (Option (Fin 8)) where
  allowed
    | none => Finset.univ
    | some d => Finset.univ.filter fun x => ¬ Near 0 (roundVec d + roundVec x)
  next _ x := some x

/-- The weight of a state: more steps are possible after a diagonal step. -/
noncomputable def roundWeight : Option (Fin 8) → ℝ
  | none => 2 * √5 - 2
  | some d => if d.val % 2 = 0 then 1 else (1 + √5) / 2

theorem round_count (k : Nat) : ((roundRules.lists k none).card : ℝ) ≤ (2 * √5 - 2) * (2 + √5) ^ k := by
  have h5 : √5 * √5 = 5 := Real.mul_self_sqrt (by norm_num)
  have hpos : 2 ≤ √5 := Real.le_sqrt_of_sq_le (by norm_num)
  refine roundRules.card_le (by positivity) roundWeight ?_ ?_ k none
  · rintro (_ | d)
    · show 1 ≤ 2 * √5 - 2
      linarith
    · show 1 ≤ if d.val % 2 = 0 then 1 else (1 + √5) / 2
      split
      · exact le_rfl
      · linarith
  · have key : ∀ I : Finset (Fin 8), (∑ x ∈ I, if x.val % 2 = 0 then (1 : ℝ) else (1 + √5) / 2) =
        (I.filter fun x => x.val % 2 = 0).card + (I.filter fun x => ¬ x.val % 2 = 0).card * ((1 + √5) / 2) := by
      intro I
      rw [Finset.sum_ite, Finset.sum_const, Finset.sum_const, nsmul_eq_mul, nsmul_eq_mul, mul_one]
    rintro (_ | d)
    · show (∑ x : Fin 8, if x.val % 2 = 0 then (1 : ℝ) else (1 + √5) / 2) ≤ (2 + √5) * (2 * √5 - 2)
      rw [key, show (Finset.univ.filter fun x : Fin 8 => x.val % 2 = 0).card = 4 by decide,
        show (Finset.univ.filter fun x : Fin 8 => ¬ x.val % 2 = 0).card = 4 by decide]
      push_cast
      nlinarith
    · show (∑ x ∈ Finset.univ.filter fun x => ¬ Near 0 (roundVec d + roundVec x), if x.val % 2 = 0 then (1 : ℝ) else (1 + √5) / 2) ≤
        (2 + √5) * if d.val % 2 = 0 then 1 else (1 + √5) / 2
      rw [key]
      have c : ∀ d : Fin 8, ((Finset.univ.filter fun x => ¬ Near 0 (roundVec d + roundVec x)).filter fun x => x.val % 2 = 0).card =
          (if d.val % 2 = 0 then 1 else 2) ∧
          ((Finset.univ.filter fun x => ¬ Near 0 (roundVec d + roundVec x)).filter fun x => ¬ x.val % 2 = 0).card =
          if d.val % 2 = 0 then 2 else 3 := by decide
      obtain ⟨c1, c2⟩ := c d
      rw [c1, c2]
      split
      · push_cast
        linarith
      · push_cast
        nlinarith

theorem round_vec {v : Int × Int} (h : Near 0 v) (hv : v ≠ 0) : ∃ d, v = roundVec d := by
  obtain ⟨a, b⟩ := v
  simp only [Near, Prod.fst_zero, Prod.snd_zero, sub_zero] at h
  obtain ⟨⟨h1, h2⟩, h3, h4⟩ := h
  have ha : a = -1 ∨ a = 0 ∨ a = 1 := by omega
  have hb : b = -1 ∨ b = 0 ∨ b = 1 := by omega
  rcases ha with rfl | rfl | rfl <;> rcases hb with rfl | rfl | rfl <;> first | exact absurd rfl hv | (revert h1 h2 h3 h4; decide)

/-- The steps of a path without shortcuts, as a trail of straight and diagonal steps. -/
theorem round_trail {n k : Nat} {em : Nat → Prop} {u : Nat → Int × Int} (hk : k ≤ n) (he : ∀ i ≤ n, em (siteAt L (u i)))
    (hst : ∀ i < n, Near 0 (u (i + 1) - u i)) (hd : ∀ i ≤ k, ∀ j ≤ k, siteAt L (u i) = siteAt L (u j) → i = j)
    (hmin : ∀ i k m, i + k ≤ n → GPath (Near 0) L em m (u i) (u (i + k)) → k ≤ m) :
    ∃ ds ∈ roundRules.lists k none, (trail L roundVec (u 0) ds).Nodup ∧ ∀ s ∈ trail L roundVec (u 0) ds, em s := by
  have hex : ∀ i, ∃ d : Fin 8, i < n → u (i + 1) - u i = roundVec d := fun i => by
    by_cases hi : i < n
    · obtain ⟨d, hd⟩ := round_vec (hst i hi) (by
        intro hz
        have := hmin i 1 0 (by omega) (by rw [sub_eq_zero.1 hz]; exact .nil (he i (by omega)))
        omega)
      exact ⟨d, fun _ => hd⟩
    · exact ⟨0, fun h => absurd h hi⟩
  choose f hf using hex
  have hu : ∀ i < n, u (i + 1) = u i + roundVec (f i) := fun i hi => by rw [← hf i hi]; abel
  have h1 : ∀ i, i + 1 < n → ¬ Near 0 (roundVec (f i) + roundVec (f (i + 1))) := by
    intro i hi hc
    have := hmin i 2 1 (by omega) (.snoc (.nil (he i (by omega))) (he (i + 2) (by omega)) (by
      rw [hu (i + 1) hi, hu i (by omega), add_assoc, add_sub_cancel_left]
      exact hc))
    omega
  refine ⟨(List.range' 0 k).map f, ?_, ?_⟩
  · refine roundRules.mem_lists (st := fun i => match i with | 0 => none | (i + 1) => some (f i)) k 0 ?_ ?_
    · intro j hj
      match j with
      | 0 => exact Finset.mem_univ _
      | j + 1 =>
        simp only [roundRules, Finset.mem_filter, Finset.mem_univ, true_and]
        exact h1 j (by omega)
    · intro j
      rfl
  · rw [trail_points k 0 (fun j hj => hu j (by omega))]
    constructor
    · refine List.Nodup.map_on ?_ (List.nodup_range' (step := 1))
      intro x hx y hy
      rw [List.mem_range'_1] at hx hy
      exact hd x (by omega) y (by omega)
    · intro s hs
      obtain ⟨j, hj, rfl⟩ := List.mem_map.1 hs
      rw [List.mem_range'_1] at hj
      exact he j (by omega)

theorem EmptyConn.gpath {occ : Nat → Prop} {p q : Int × Int} (hp : ¬ occ (siteAt L p)) (h : EmptyConn L occ p q) :
    ∃ m, GPath (Near 0) L (¬ occ ·) m p q := by
  induction h with
  | refl => exact ⟨0, .nil hp⟩
  | tail _ h ih =>
    obtain ⟨m, hm⟩ := ih
    refine ⟨m + 1, hm.snoc h.2.1 ?_⟩
    have := h.2.2
    simp only [Near, Prod.fst_sub, Prod.snd_sub, Prod.fst_zero, Prod.snd_zero, sub_zero] at this ⊢
    exact this

/-- If empty sites form a closed path around the lattice, they contain an allowed path of `L` different sites. -/
theorem loop_trail (hL : 0 < L) {occ : Nat → Prop} {v : Int × Int} (hv : v ≠ 0) (h : EmptyLoop L occ v) :
    ∃ p, ∃ ds ∈ roundRules.lists (L - 1) none, (trail L roundVec p ds).Nodup ∧ ∀ s ∈ trail L roundVec p ds, ¬ occ s := by
  obtain ⟨p, e, hc⟩ := h
  have hp : ¬ occ (siteAt L p) := by
    rcases Relation.ReflTransGen.cases_head hc with h | ⟨_, h, _⟩
    · exfalso
      exact hv (by simpa using h.symm)
    · exact h.1
  obtain ⟨m, hm⟩ := EmptyConn.gpath hp hc
  obtain ⟨n, u, hn, he, hst, hd, hmin⟩ := shortest_closed (D := Near 0) (em := (¬ occ ·)) hL (fun v h => h)
    ⟨m, p, p + v, e.symm, by rwa [add_sub_cancel_left], hm⟩
  exact ⟨u 0, round_trail (k := L - 1) (by omega) he hst (fun i hi j hj => hd i (by omega) j (by omega)) hmin⟩

theorem loop_of_not_wraps (hL : 0 < L) {T : Finset Nat} (hT : T ⊆ Finset.range (L * L)) (h : ¬ Wraps L (· ∈ T)) :
    ∃ v, v ≠ 0 ∧ EmptyLoop L (· ∈ T) v := by
  obtain ⟨v, h1, hv⟩ := emptyLoop_of_not_wraps hL (occ := (· ∈ T)) (fun s hs => Finset.mem_range.1 (hT hs)) h (a := 1) (b := 0) (by simp)
  refine ⟨v, ?_, h1⟩
  rintro rfl
  simp at hv

/-- The chance that the sites other than `n` random ones form a closed path around the lattice. -/
theorem loop_unlikely (hL : 0 < L) {n : Nat} (hn : n ≤ L * L) :
    micro (L * L) n (fun T => ind (∃ v, v ≠ 0 ∧ EmptyLoop L (· ∈ T) v)) ≤ (L : ℝ) ^ 2 * ((2 + √5) * (1 - (n : ℝ) / (L * L : Nat))) ^ L := by
  have h5 : √5 * √5 = 5 := Real.mul_self_sqrt (by norm_num)
  have hpos : 2 ≤ √5 := Real.le_sqrt_of_sq_le (by norm_num)
  rw [micro_compl hn]
  have := micro_trails hL roundRules none roundVec (k := L - 1) (n := L * L - n) (Nat.sub_le _ _)
    (P := fun T => ∃ v, v ≠ 0 ∧ EmptyLoop L (· ∈ Finset.range (L * L) \ T) v) (fun T hT h => by
      obtain ⟨v, hv, h⟩ := h
      obtain ⟨p, ds, h1, h2, h3⟩ := loop_trail hL hv h
      refine ⟨p, ds, h1, h2, fun s hs => ?_⟩
      have := h3 s hs
      rw [Finset.mem_sdiff, Finset.mem_range, not_and, not_not] at this
      exact this (trail_lt hL ds p s hs))
  refine this.trans ?_
  have hN : (0 : ℝ) < (L * L : Nat) := by exact_mod_cast Nat.mul_pos hL hL
  have e2 : ((L * L - n : Nat) : ℝ) / (L * L : Nat) = 1 - (n : ℝ) / (L * L : Nat) := by
    rw [Nat.cast_sub hn, sub_div, div_self hN.ne']
  have hy : 0 ≤ 1 - (n : ℝ) / (L * L : Nat) := by
    rw [← e2]; positivity
  rw [e2, Nat.sub_add_cancel hL, mul_pow, ← mul_assoc]
  refine mul_le_mul_of_nonneg_right ?_ (by positivity)
  rw [show ((L * L : Nat) : ℝ) = (L : ℝ) ^ 2 by push_cast; ring]
  refine mul_le_mul_of_nonneg_left ?_ (by positivity)
  refine (round_count (L - 1)).trans ?_
  have e : (2 + √5) ^ L = (2 + √5) * (2 + √5) ^ (L - 1) := by
    rw [← pow_succ', Nat.sub_add_cancel hL]
  rw [e]
  refine mul_le_mul_of_nonneg_right ?_ (by positivity)
  have : √5 ≤ 4 := by
    rw [Real.sqrt_le_left (by norm_num)]
    norm_num
  linarith

/-- The chance that `n` random sites do not wrap. -/
theorem not_wraps_unlikely (hL : 0 < L) {n : Nat} (hn : n ≤ L * L) :
    1 - micro (L * L) n (fun T => ind (Wraps L (· ∈ T))) ≤ (L : ℝ) ^ 2 * ((2 + √5) * (1 - (n : ℝ) / (L * L : Nat))) ^ L := by
  have hch : (0 : ℝ) < (L * L).choose n := by exact_mod_cast Nat.choose_pos hn
  refine le_trans (le_of_eq ?_) ((micro_le_sum (N := L * L) (n := n) (f := fun T => 1 - ind (Wraps L (· ∈ T))) {()}
    (g := fun _ T => ind (∃ v, v ≠ 0 ∧ EmptyLoop L (· ∈ T) v)) ?_).trans ((Finset.sum_singleton _ _).le.trans (loop_unlikely hL hn)))
  · unfold micro
    rw [Finset.sum_sub_distrib, Finset.sum_const, Finset.card_powersetCard, Finset.card_range, nsmul_eq_mul, mul_one, sub_div,
      div_self hch.ne']
  · intro T hT
    rw [Finset.sum_singleton]
    by_cases h : Wraps L (· ∈ T)
    · rw [ind, if_pos h, sub_self]
      exact ind_nonneg _
    · rw [ind, if_neg h, sub_zero, ind, if_pos (loop_of_not_wraps hL (Finset.mem_powersetCard.1 hT).1 h)]

end SqPerc
