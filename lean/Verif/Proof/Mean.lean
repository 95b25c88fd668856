import Verif.Proof.Uniform
import Verif.Spec.Mean
import Mathlib.Algebra.BigOperators.Fin
import Mathlib.Tactic.FieldSimp
import Mathlib.Algebra.Order.BigOperators.Group.Finset
/-
Averages over shuffles.
-/
namespace SqPerc

theorem meanOf_const {ι : Type} [Fintype ι] [Nonempty ι] (c : ℝ) : meanOf (fun _ : ι => c) = c := by
  unfold meanOf
  rw [Finset.sum_const, Finset.card_univ, nsmul_eq_mul]
  have : (Fintype.card ι : ℝ) ≠ 0 := by exact_mod_cast Fintype.card_ne_zero
  field_simp

theorem meanOf_congr {ι : Type} [Fintype ι] {F G : ι → ℝ} (h : ∀ i, F i = G i) : meanOf F = meanOf G := by
  rw [funext h]

theorem meanOf_sum {ι κ : Type} [Fintype ι] (s : Finset κ) (F : κ → ι → ℝ) : meanOf (fun i => ∑ k ∈ s, F k i) = ∑ k ∈ s, meanOf (F k) := by
  unfold meanOf
  rw [Finset.sum_comm, Finset.sum_div]

theorem meanOf_div {ι : Type} [Fintype ι] (F : ι → ℝ) (c : ℝ) : meanOf (fun i => F i / c) = meanOf F / c := by
  unfold meanOf
  rw [← Finset.sum_div, div_right_comm]

theorem meanOf_sub {ι : Type} [Fintype ι] (F G : ι → ℝ) : meanOf (fun i => F i - G i) = meanOf F - meanOf G := by
  unfold meanOf
  rw [Finset.sum_sub_distrib, sub_div]

/-- Several independent outcomes: first one, then the others. -/
theorem meanOf_cons {D : Type} [Fintype D] {E : Nat} (F : (Fin (E + 1) → D) → ℝ) :
    meanOf F = meanOf fun y : D => meanOf fun ys : Fin E → D => F (Fin.cons y ys) := by
  unfold meanOf
  have e : ∑ x : Fin (E + 1) → D, F x = ∑ p : D × (Fin E → D), F (Fin.cons p.1 p.2) :=
    (Fintype.sum_equiv (Fin.consEquiv fun _ => D) _ _ fun _ => rfl).symm
  have c : (Fintype.card (Fin (E + 1) → D) : ℝ) = Fintype.card (Fin E → D) * Fintype.card D := by
    rw [Fintype.card_fun, Fintype.card_fun, Fintype.card_fin, Fintype.card_fin, pow_succ]
    push_cast; rfl
  rw [e, Fintype.sum_prod_type, ← Finset.sum_div, div_div, c]

theorem DrawVec.card (N : Nat) : Fintype.card (DrawVec N) = N.factorial := by
  rw [Fintype.card_pi]
  induction N with
  | zero => rfl
  | succ N ih =>
    rw [Fin.prod_univ_castSucc, Nat.factorial_succ, mul_comm, ← ih]
    simp

instance (N : Nat) : Nonempty (DrawVec N) := ⟨fun _ => 0⟩

/-- The average over the shuffles of a list of different sites does not depend on the order in which the list was. -/
theorem meanOf_shuffle {N : Nat} {l : List Nat} (hp : l.Perm (List.range N)) (g : List Nat → ℝ) :
    meanOf (fun y : DrawVec N => g (pyShuffle y.draws l)) = meanOf fun y : DrawVec N => g (pyShuffle y.draws (List.range N)) := by
  have hlen : l.length = N := by rw [hp.length_eq, List.length_range]
  have hs : ∀ y : DrawVec N, ∃ z : DrawVec N, pyShuffle z.draws (List.range N) = pyShuffle y.draws l := by
    intro y
    have h := pyShuffle_vec_surj (l := List.range N) ((pyShuffle_perm y.draws l).trans hp)
    rw [List.length_range] at h
    exact h
  choose F hF using hs
  have hinj : Function.Injective F := by
    intro x y h
    have e := (hF x).symm.trans ((congrArg (fun z : DrawVec N => pyShuffle z.draws (List.range N)) h).trans (hF y))
    exact pyShuffle_inj (hp.nodup_iff.2 List.nodup_range) hlen e
  unfold meanOf
  congr 1
  exact Fintype.sum_bijective F (Finite.injective_iff_bijective.1 hinj) _ _ fun y => by rw [hF]

/-- The average over all shuffles of a quantity of the set of the first `n` sites is the average over all sets of `n` sites. -/
theorem meanOf_take {N n : Nat} (hn : n ≤ N) (f : Finset Nat → ℝ) :
    meanOf (fun y : DrawVec N => f ((pyShuffle y.draws (List.range N)).take n).toFinset) = micro N n f := by
  classical
  have hset : ∀ y : DrawVec N, ((pyShuffle y.draws (List.range N)).take n).toFinset ∈ (Finset.range N).powersetCard n := by
    intro y
    have hp := pyShuffle_perm y.draws (List.range N)
    have hnd : (pyShuffle y.draws (List.range N)).Nodup := hp.nodup_iff.2 List.nodup_range
    rw [Finset.mem_powersetCard]
    refine ⟨?_, ?_⟩
    · intro s hs
      rw [List.mem_toFinset] at hs
      exact Finset.mem_range.2 (List.mem_range.1 (hp.mem_iff.1 (List.mem_of_mem_take hs)))
    · rw [List.toFinset_card_of_nodup (hnd.sublist (List.take_sublist _ _)), List.length_take, hp.length_eq, List.length_range, Nat.min_eq_left hn]
  have hfib : ∀ T : Finset Nat, (Finset.univ.filter fun y : DrawVec N => ((pyShuffle y.draws (List.range N)).take n).toFinset = T).card =
      Nat.card {x : DrawVec N // ∀ s, s ∈ (pyShuffle x.draws (List.range N)).take n ↔ s ∈ T} := by
    intro T
    rw [Nat.card_eq_fintype_card, Fintype.card_subtype]
    congr 1
    refine Finset.filter_congr fun x _ => ?_
    rw [Finset.ext_iff]
    simp only [List.mem_toFinset]
  obtain ⟨c, hc⟩ : ∃ c : Nat, ∀ T ∈ (Finset.range N).powersetCard n,
      (Finset.univ.filter fun y : DrawVec N => ((pyShuffle y.draws (List.range N)).take n).toFinset = T).card = c := by
    refine ⟨(Finset.univ.filter fun y : DrawVec N => ((pyShuffle y.draws (List.range N)).take n).toFinset = Finset.range n).card, fun T hT => ?_⟩
    obtain ⟨h1, h2⟩ := Finset.mem_powersetCard.1 hT
    have h3 : Finset.range n ⊆ Finset.range N := Finset.range_subset_range.2 hn
    have h4 : T.card = (Finset.range n).card := by rw [h2, Finset.card_range]
    rw [hfib, hfib]
    exact le_antisymm (card_orders_le h1 h3 h4) (card_orders_le h3 h1 h4.symm)
  have hsum : ∀ f : Finset Nat → ℝ, ∑ y : DrawVec N, f ((pyShuffle y.draws (List.range N)).take n).toFinset =
      c * ∑ T ∈ (Finset.range N).powersetCard n, f T := by
    intro f
    rw [← Finset.sum_fiberwise_of_maps_to (s := Finset.univ) (t := (Finset.range N).powersetCard n) fun y _ => hset y, Finset.mul_sum]
    refine Finset.sum_congr rfl fun T hT => ?_
    rw [← hc T hT, ← nsmul_eq_mul, ← Finset.sum_const]
    exact Finset.sum_congr rfl fun y hy => by rw [(Finset.mem_filter.1 hy).2]
  have h1 := hsum fun _ => 1
  rw [Finset.sum_const, Finset.sum_const, nsmul_eq_mul, nsmul_eq_mul, mul_one, mul_one, Finset.card_powersetCard, Finset.card_range, Finset.card_univ] at h1
  unfold meanOf micro
  rw [hsum, h1]
  have hN : (Fintype.card (DrawVec N) : ℝ) ≠ 0 := by exact_mod_cast Fintype.card_ne_zero
  rw [h1] at hN
  have hc0 : (c : ℝ) ≠ 0 := left_ne_zero_of_mul hN
  rw [mul_div_mul_left _ _ hc0]

/-- The orders in which the sites are placed in a row of shuffles, each of which shuffles the list left by the one before. -/
def shuffleOrders : List Nat → List (Nat → Nat) → List (List Nat)
  | _, [] => []
  | l, d :: ds => pyShuffle d l :: shuffleOrders (pyShuffle d l) ds

theorem shuffleOrders_length (l : List Nat) (ds : List (Nat → Nat)) : (shuffleOrders l ds).length = ds.length := by
  induction ds generalizing l with
  | nil => rfl
  | cons d ds ih => rw [shuffleOrders, List.length_cons, ih, List.length_cons]

theorem shuffleOrders_perm {l : List Nat} {ds : List (Nat → Nat)} {q : List Nat} (hq : q ∈ shuffleOrders l ds) : q.Perm l := by
  induction ds generalizing l with
  | nil => cases hq
  | cons d ds ih =>
    rcases List.mem_cons.1 hq with rfl | h
    · exact pyShuffle_perm _ _
    · exact (ih h).trans (pyShuffle_perm _ _)

/-- In a row of independent shuffles each order is distributed as a single shuffle of the sorted list. -/
theorem meanOf_orders {N E : Nat} (g : List Nat → ℝ) : ∀ {l : List Nat}, l.Perm (List.range N) → ∀ i < E,
    meanOf (fun x : Fin E → DrawVec N => g ((shuffleOrders l (List.ofFn fun j => (x j).draws)).getD i [])) =
    meanOf fun y : DrawVec N => g (pyShuffle y.draws (List.range N)) := by
  induction E with
  | zero => intro l _ i hi; omega
  | succ E ih =>
    intro l hl i hi
    rw [meanOf_cons]
    have hof : ∀ (y : DrawVec N) (ys : Fin E → DrawVec N), (List.ofFn fun j => ((Fin.cons y ys : Fin (E + 1) → DrawVec N) j).draws) =
        y.draws :: List.ofFn fun j => (ys j).draws := by
      intro y ys
      rw [List.ofFn_succ]
      rfl
    cases i with
    | zero =>
      rw [← meanOf_shuffle hl]
      refine meanOf_congr fun y => ?_
      rw [← meanOf_const (ι := Fin E → DrawVec N) (g (pyShuffle y.draws l))]
      refine meanOf_congr fun ys => ?_
      rw [hof, shuffleOrders]; rfl
    | succ i =>
      rw [← meanOf_const (ι := DrawVec N) (meanOf fun y : DrawVec N => g (pyShuffle y.draws (List.range N)))]
      refine meanOf_congr fun y => ?_
      rw [← ih ((pyShuffle_perm y.draws l).trans hl) i (by omega)]
      refine meanOf_congr fun ys => ?_
      rw [hof, shuffleOrders]; rfl

end SqPerc
