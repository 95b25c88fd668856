import Verif.Proof.Ids
import Mathlib.Logic.Equiv.Fintype
import Mathlib.Data.Fintype.Pi
import Mathlib.Data.Fintype.Card
import Mathlib.SetTheory.Cardinal.Finite
/-
`random.shuffle` is a bijection between the vectors of random numbers and the orders.
-/
namespace SqPerc

/-- One random number `0 ≤ j ≤ i` for every position `i < N`. -/
abbrev DrawVec (N : Nat) : Type := (i : Fin N) → Fin (i.1 + 1)

/-- The random numbers as a function on positions. -/
def DrawVec.draws {N : Nat} (x : DrawVec N) (m : Nat) : Nat := if h : m < N then (x ⟨m, h⟩).1 else 0

theorem DrawVec.draws_le {N : Nat} (x : DrawVec N) (m : Nat) : x.draws m ≤ m := by
  unfold DrawVec.draws
  split
  · next h => have := (x ⟨m, h⟩).2; simp only at this; omega
  · omega

theorem shuffleFrom_tail (d : Nat → Nat) (n : Nat) : ∀ (l : List Nat), n < l.length → ∀ m, n < m → (shuffleFrom d n l)[m]? = l[m]? := by
  induction n with
  | zero => intro l _ m _; rfl
  | succ n ih =>
    intro l hn m hm
    have hj : d (n + 1) % (n + 2) < n + 2 := Nat.mod_lt _ (by omega)
    simp only [shuffleFrom]
    rw [ih _ (by rw [swapAt_length]; omega) m (by omega),
      swapAt_get (List.getElem?_eq_getElem hn) (List.getElem?_eq_getElem (by omega : d (n + 1) % (n + 2) < l.length)),
      if_neg (by omega), if_neg (by omega)]

theorem shuffleFrom_inj {d d' : Nat → Nat} (hd : ∀ m, d m ≤ m) (hd' : ∀ m, d' m ≤ m) (n : Nat) : ∀ (l : List Nat), l.Nodup → n < l.length →
    shuffleFrom d n l = shuffleFrom d' n l → ∀ m, m ≤ n → d m = d' m := by
  induction n with
  | zero =>
    intro l _ _ _ m hm
    have h1 := hd m
    have h2 := hd' m
    omega
  | succ n ih =>
    intro l hl hn e m hm
    have h1 := hd (n + 1)
    have h2 := hd' (n + 1)
    have e1 : d (n + 1) % (n + 2) = d (n + 1) := Nat.mod_eq_of_lt (by omega)
    have e2 : d' (n + 1) % (n + 2) = d' (n + 1) := Nat.mod_eq_of_lt (by omega)
    simp only [shuffleFrom, e1, e2] at e
    have key : ∀ j, j ≤ n + 1 → ∀ f : Nat → Nat, (shuffleFrom f n (swapAt l (n + 1) j))[n + 1]? = l[j]? := by
      intro j hj f
      rw [shuffleFrom_tail f n _ (by rw [swapAt_length]; omega) _ (by omega),
        swapAt_get (List.getElem?_eq_getElem hn) (List.getElem?_eq_getElem (by omega : j < l.length))]
      by_cases h : n + 1 = j
      · rw [if_pos h]; subst h; exact (List.getElem?_eq_getElem hn).symm
      · rw [if_neg h, if_pos rfl, List.getElem?_eq_getElem]
    have h3 : d (n + 1) = d' (n + 1) := by
      have h4 := congrArg (fun x : List Nat => x[n + 1]?) e
      simp only [key _ h1, key _ h2] at h4
      rw [List.getElem?_eq_getElem (by omega), List.getElem?_eq_getElem (by omega)] at h4
      exact (hl.getElem_inj_iff).1 (Option.some.inj h4)
    rcases Nat.lt_or_ge m (n + 1) with h | h
    · rw [← h3] at e
      exact ih _ ((swapAt_perm _ _ _).nodup_iff.2 hl) (by rw [swapAt_length]; omega) e m (by omega)
    · have : m = n + 1 := by omega
      rw [this, h3]

/-- Different random numbers give different orders of distinct elements. -/
theorem pyShuffle_inj {l : List Nat} {N : Nat} (hl : l.Nodup) (hN : l.length = N) {x y : DrawVec N}
    (h : pyShuffle x.draws l = pyShuffle y.draws l) : x = y := by
  subst hN
  funext i
  have hi := i.2
  have := shuffleFrom_inj x.draws_le y.draws_le _ l hl (by omega) h i.1 (by omega)
  unfold DrawVec.draws at this
  rw [dif_pos hi, dif_pos hi] at this
  exact Fin.ext this

/-- Every order of the elements comes from some vector of random numbers. -/
theorem pyShuffle_vec_surj {l p : List Nat} (h : p.Perm l) : ∃ x : DrawVec l.length, pyShuffle x.draws l = p := by
  obtain ⟨d, hd⟩ := pyShuffle_surj h.symm
  refine ⟨fun i => ⟨d i.1 % (i.1 + 1), Nat.mod_lt _ (by omega)⟩, ?_⟩
  rw [← hd]
  unfold pyShuffle
  have : ∀ n (l' : List Nat), n < l.length → shuffleFrom (DrawVec.draws (N := l.length) fun i => ⟨d i.1 % (i.1 + 1), Nat.mod_lt _ (by omega)⟩) n l'
      = shuffleFrom d n l' := by
    intro n
    induction n with
    | zero => intro l' _; rfl
    | succ n ih =>
      intro l' hn
      simp only [shuffleFrom]
      rw [ih _ (by omega)]
      congr 2
      unfold DrawVec.draws
      rw [dif_pos hn]
      show d (n + 1) % (n + 1 + 1) % (n + 2) = _
      exact Nat.mod_mod _ _
  rcases Nat.eq_zero_or_pos l.length with h0 | h0
  · have : l = [] := List.eq_nil_of_length_eq_zero h0
    subst this; rfl
  · exact this _ l (by omega)

/-- Orders whose first `n` entries are the elements of `T`. -/
theorem exists_perm_of_card {N : Nat} {T T' : Finset Nat} (hT : T ⊆ Finset.range N) (hT' : T' ⊆ Finset.range N) (hc : T.card = T'.card) :
    ∃ f : Equiv.Perm Nat, (∀ x, f x < N ↔ x < N) ∧ ∀ x, f x ∈ T' ↔ x ∈ T := by
  classical
  let α := {x : Nat // x < N}
  have : Fintype α := Fintype.ofFinset (Finset.range N) (fun x => by simp; rfl)
  have cT : ∀ X : Finset Nat, X ⊆ Finset.range N → Fintype.card {x : α // x.1 ∈ X} = X.card := by
    intro X hX
    rw [← Fintype.card_coe X]
    refine Fintype.card_congr ⟨fun x => ⟨x.1.1, x.2⟩, fun x => ⟨⟨x.1, Finset.mem_range.1 (hX x.2)⟩, x.2⟩, fun _ => rfl, fun _ => rfl⟩
  have e : {x : α // x.1 ∈ T} ≃ {x : α // x.1 ∈ T'} := Fintype.equivOfCardEq (by rw [cT T hT, cT T' hT', hc])
  let g : Equiv.Perm α := e.extendSubtype
  refine ⟨Equiv.Perm.ofSubtype g, ?_, ?_⟩
  · intro x
    by_cases hx : x < N
    · rw [Equiv.Perm.ofSubtype_apply_of_mem g hx]
      exact ⟨fun _ => hx, fun _ => (g ⟨x, hx⟩).2⟩
    · rw [Equiv.Perm.ofSubtype_apply_of_not_mem g hx]
  · intro x
    by_cases hx : x < N
    · rw [Equiv.Perm.ofSubtype_apply_of_mem g hx]
      constructor
      · intro h
        by_contra hn
        exact Equiv.extendSubtype_not_mem e ⟨x, hx⟩ hn h
      · intro h
        exact Equiv.extendSubtype_mem e ⟨x, hx⟩ h
    · rw [Equiv.Perm.ofSubtype_apply_of_not_mem g hx]
      exact ⟨fun h => absurd (Finset.mem_range.1 (hT' h)) hx, fun h => absurd (Finset.mem_range.1 (hT h)) hx⟩

theorem card_orders_le {N n : Nat} {T T' : Finset Nat} (hT : T ⊆ Finset.range N) (hT' : T' ⊆ Finset.range N) (hc : T.card = T'.card) :
    Nat.card {x : DrawVec N // ∀ s, s ∈ (pyShuffle x.draws (List.range N)).take n ↔ s ∈ T} ≤
    Nat.card {x : DrawVec N // ∀ s, s ∈ (pyShuffle x.draws (List.range N)).take n ↔ s ∈ T'} := by
  classical
  obtain ⟨f, h1, h2⟩ := exists_perm_of_card hT hT' hc
  have hlen : (List.range N).length = N := List.length_range
  have hperm : ∀ x : DrawVec N, ((pyShuffle x.draws (List.range N)).map f).Perm (List.range N) := by
    intro x
    refine ((pyShuffle_perm _ _).map f).trans ?_
    refine (List.perm_ext_iff_of_nodup (List.nodup_range.map f.injective) List.nodup_range).2 fun a => ?_
    rw [List.mem_map, List.mem_range]
    constructor
    · rintro ⟨b, hb, rfl⟩
      exact (h1 b).2 (List.mem_range.1 hb)
    · intro ha
      refine ⟨f.symm a, List.mem_range.2 ?_, f.apply_symm_apply a⟩
      rw [← h1, f.apply_symm_apply]; exact ha
  have hs : ∀ x : DrawVec N, ∃ y : DrawVec N, pyShuffle y.draws (List.range N) = (pyShuffle x.draws (List.range N)).map f := by
    intro x
    have := pyShuffle_vec_surj (hperm x)
    rw [hlen] at this
    exact this
  choose F hF using hs
  refine Nat.card_le_card_of_injective (fun x => ⟨F x.1, fun s => ?_⟩) ?_
  · rw [hF, ← List.map_take, List.mem_map]
    constructor
    · rintro ⟨b, hb, rfl⟩
      exact (h2 b).2 ((x.2 b).1 hb)
    · intro h
      refine ⟨f.symm s, (x.2 _).2 ?_, f.apply_symm_apply s⟩
      rw [← h2, f.apply_symm_apply]; exact h
  · intro x y h
    have h3 : F x.1 = F y.1 := congrArg Subtype.val h
    have h4 := (hF x.1).symm.trans ((congrArg (fun z : DrawVec N => pyShuffle z.draws (List.range N)) h3).trans (hF y.1))
    have h5 := List.map_injective_iff.2 f.injective h4
    apply Subtype.ext
    exact pyShuffle_inj List.nodup_range hlen h5

end SqPerc
