import Verif.Proof.Fewest
import Verif.Proof.Mean
import Verif.Props.LineLaw
import Mathlib.Analysis.Real.Sqrt
import Mathlib.Data.Nat.Choose.Basic
/-
How unlikely it is that few sites wrap, or that many sites do not.

A shortest closed path around the lattice makes no detour: no two of its points that are further apart along the path can be joined more quickly.
Counting the ways in which such a path can start gives, with random sites, a bound that decreases exponentially with `L`.
-/
namespace SqPerc

variable {L : Nat} {em : Nat → Prop} {D : Int × Int → Prop}

/-! ### Paths with given steps -/

/-- A path of `n` steps in the plane over sites with `em`; the steps are those with `D`. -/
inductive GPath (D : Int × Int → Prop) (L : Nat) (em : Nat → Prop) : Nat → Int × Int → Int × Int → Prop
  | nil {p : Int × Int} (h : em (siteAt L p)) : GPath D L em 0 p p
  | snoc {n : Nat} {p q r : Int × Int} (h : GPath D L em n p q) (hr : em (siteAt L r)) (hn : D (r - q)) : GPath D L em (n + 1) p r

namespace GPath

theorem right {n : Nat} {p q : Int × Int} (h : GPath D L em n p q) : em (siteAt L q) := by
  cases h with
  | nil h => exact h
  | snoc _ h _ => exact h

theorem append {n m : Nat} {p q r : Int × Int} (h : GPath D L em n p q) (h' : GPath D L em m q r) : GPath D L em (n + m) p r := by
  induction h' with
  | nil _ => exact h
  | snoc _ hr hn ih => exact (ih h).snoc hr hn

theorem shift {n : Nat} {p q o : Int × Int} (per : ∀ x, siteAt L (x + o) = siteAt L x) (h : GPath D L em n p q) : GPath D L em n (p + o) (q + o) := by
  induction h with
  | nil h => exact .nil (by rwa [per])
  | snoc _ hr hn ih => exact ih.snoc (by rwa [per]) (by rwa [add_sub_add_right_eq_sub])

theorem points {n : Nat} {p q : Int × Int} (h : GPath D L em n p q) : ∃ u : Nat → Int × Int, u 0 = p ∧ u n = q ∧
    (∀ i ≤ n, em (siteAt L (u i))) ∧ ∀ i < n, D (u (i + 1) - u i) := by
  induction h with
  | @nil p h => exact ⟨fun _ => p, rfl, rfl, fun _ _ => h, fun i hi => absurd hi (by omega)⟩
  | @snoc n p q r h hr hn ih =>
    obtain ⟨u, h1, h2, h3, h4⟩ := ih
    refine ⟨fun i => if i ≤ n then u i else r, by simp [h1], by simp, ?_, ?_⟩
    · intro i hi
      dsimp only
      split
      · exact h3 i ‹_›
      · exact hr
    · intro i hi
      dsimp only
      by_cases hin : i < n
      · rw [if_pos (by omega), if_pos (by omega)]
        exact h4 i hin
      · obtain rfl : i = n := by omega
        rw [if_neg (by omega), if_pos le_rfl, h2]
        exact hn

/-- The part of a path between two of its points. -/
theorem part {n : Nat} {u : Nat → Int × Int} (h3 : ∀ i ≤ n, em (siteAt L (u i))) (h4 : ∀ i < n, D (u (i + 1) - u i)) {i : Nat} :
    ∀ k, i + k ≤ n → GPath D L em k (u i) (u (i + k)) := by
  intro k
  induction k with
  | zero => intro h; exact .nil (h3 i h)
  | succ k ih => intro h; exact .snoc (ih (by omega)) (h3 _ h) (h4 (i + k) (by omega))

/-- A path whose steps are straight or diagonal. -/
theorem near (hD : ∀ v, D v → Near 0 v) {n : Nat} {p q : Int × Int} (h : GPath D L em n p q) : EPath L em n p q := by
  induction h with
  | nil h => exact .nil h
  | snoc _ hr hn ih =>
    refine ih.snoc hr ?_
    have := hD _ hn
    simp only [Near, Prod.fst_sub, Prod.snd_sub, Prod.fst_zero, Prod.snd_zero, sub_zero] at this
    exact this

end GPath

/-- A shortest closed path around the lattice: it visits `L` different sites or more, and no part of it can be replaced by a shorter path. -/
theorem shortest_closed (hL : 0 < L) (hD : ∀ v, D v → Near 0 v)
    (hex : ∃ n p q, siteAt L p = siteAt L q ∧ q - p ≠ 0 ∧ GPath D L em n p q) : ∃ (n : Nat) (u : Nat → Int × Int), L ≤ n ∧
      (∀ i ≤ n, em (siteAt L (u i))) ∧ (∀ i < n, D (u (i + 1) - u i)) ∧
      (∀ i < n, ∀ j < n, siteAt L (u i) = siteAt L (u j) → i = j) ∧
      ∀ i k m, i + k ≤ n → GPath D L em m (u i) (u (i + k)) → k ≤ m := by
  classical
  obtain ⟨p, q, h1, h2, h3⟩ := Nat.find_spec hex
  have hmin : ∀ m p q, siteAt L p = siteAt L q → q - p ≠ 0 → GPath D L em m p q → Nat.find hex ≤ m := fun m p q a b c =>
    Nat.find_min' hex ⟨p, q, a, b, c⟩
  have hge := (h3.near hD).length_ge hL h1 h2
  obtain ⟨u, rfl, e, hu, hs⟩ := h3.points
  generalize Nat.find hex = n at *
  subst e
  have seg : ∀ i k, i + k ≤ n → GPath D L em k (u i) (u (i + k)) := fun i k => GPath.part hu hs k
  refine ⟨n, u, hge, hu, hs, ?_, ?_⟩
  · have key : ∀ i j, i < j → j < n → siteAt L (u i) ≠ siteAt L (u j) := by
      intro i j hij hj e
      have s1 := seg 0 i (by omega)
      have s2 := seg i (j - i) (by omega)
      have s3 := seg j (n - j) (by omega)
      rw [show 0 + i = i by omega] at s1
      rw [show i + (j - i) = j by omega] at s2
      rw [show j + (n - j) = n by omega] at s3
      by_cases hz : u j - u i = 0
      · rw [sub_eq_zero] at hz
        rw [hz] at s3
        have := hmin _ _ _ h1 h2 (s1.append s3)
        omega
      · have := hmin _ _ _ e hz s2
        omega
    intro i hi j hj e
    rcases lt_trichotomy i j with h | h | h
    · exact absurd e (key i j h hj)
    · exact h
    · exact absurd e.symm (key j i h hi)
  · intro i k m hik hp
    have s1 := seg 0 i (by omega)
    have s3 := seg (i + k) (n - (i + k)) (by omega)
    rw [show 0 + i = i by omega] at s1
    rw [show i + k + (n - (i + k)) = n by omega] at s3
    have := hmin _ _ _ h1 h2 ((s1.append hp).append s3)
    omega

/-! ### Counting the beginnings of such paths -/

/-- Rules for the next step of a path: which steps are allowed in a state, and the state after a step. -/
structure Rules (δ σ : Type) where
  allowed : σ → Finset δ
  next : σ → δ → σ

/-- The sequences of `k` steps that are allowed. -/
def Rules.lists {δ σ : Type} [DecidableEq δ] (A : Rules δ σ) : Nat → σ → Finset (List δ)
  | 0, _ => {[]}
  | k + 1, s => (A.allowed s).biUnion fun d => (A.lists k (A.next s d)).image (d :: ·)

theorem Rules.card_le {δ σ : Type} [DecidableEq δ] (A : Rules δ σ) {c : ℝ} (hc : 0 ≤ c) (w : σ → ℝ) (h1 : ∀ s, 1 ≤ w s)
    (h : ∀ s, ∑ d ∈ A.allowed s, w (A.next s d) ≤ c * w s) (k : Nat) : ∀ s, ((A.lists k s).card : ℝ) ≤ w s * c ^ k := by
  induction k with
  | zero => intro s; simpa [Rules.lists] using h1 s
  | succ k ih =>
    intro s
    have e : ((A.lists (k + 1) s).card : ℝ) ≤ ∑ d ∈ A.allowed s, ((A.lists k (A.next s d)).card : ℝ) := by
      rw [← Nat.cast_sum]
      refine Nat.cast_le.2 (le_trans Finset.card_biUnion_le (Finset.sum_le_sum fun d _ => Finset.card_image_le))
    refine e.trans ((Finset.sum_le_sum fun d _ => ih (A.next s d)).trans ?_)
    rw [← Finset.sum_mul, pow_succ, show w s * (c ^ k * c) = c * w s * c ^ k by ring]
    exact mul_le_mul_of_nonneg_right (h s) (pow_nonneg hc k)

theorem Rules.length {δ σ : Type} [DecidableEq δ] (A : Rules δ σ) (k : Nat) : ∀ s, ∀ ds ∈ A.lists k s, ds.length = k := by
  induction k with
  | zero => intro s ds h; simp only [Rules.lists, Finset.mem_singleton] at h; rw [h]; rfl
  | succ k ih =>
    intro s ds h
    simp only [Rules.lists, Finset.mem_biUnion, Finset.mem_image] at h
    obtain ⟨d, _, ds', h, rfl⟩ := h
    rw [List.length_cons, ih _ _ h]

/-- The sites visited from `p` with the steps `ds`. -/
def trail {δ : Type} (L : Nat) (vec : δ → Int × Int) : Int × Int → List δ → List Nat
  | p, [] => [siteAt L p]
  | p, d :: ds => siteAt L p :: trail L vec (p + vec d) ds

theorem trail_length {δ : Type} {vec : δ → Int × Int} (ds : List δ) : ∀ p, (trail L vec p ds).length = ds.length + 1 := by
  induction ds with
  | nil => intro p; rfl
  | cons d ds ih => intro p; rw [trail, List.length_cons, ih, List.length_cons]

theorem trail_congr {δ : Type} {vec : δ → Int × Int} (hL : 0 < L) (ds : List δ) : ∀ {p q}, siteAt L p = siteAt L q →
    trail L vec p ds = trail L vec q ds := by
  induction ds with
  | nil => intro p q h; rw [trail, trail, h]
  | cons d ds ih => intro p q h; rw [trail, trail, h, ih (siteAt_add_congr hL h _)]

theorem trail_lt {δ : Type} {vec : δ → Int × Int} (hL : 0 < L) (ds : List δ) : ∀ p, ∀ s ∈ trail L vec p ds, s < L * L := by
  induction ds with
  | nil => intro p s h; rw [trail, List.mem_singleton] at h; rw [h]; exact siteAt_lt hL _
  | cons d ds ih =>
    intro p s h
    rw [trail, List.mem_cons] at h
    rcases h with rfl | h
    · exact siteAt_lt hL _
    · exact ih _ s h

/-- The trail of given points. -/
theorem trail_points {δ : Type} {vec : δ → Int × Int} {u : Nat → Int × Int} {f : Nat → δ} (k : Nat) : ∀ i, (∀ j < i + k, u (j + 1) = u j + vec (f j)) →
    trail L vec (u i) ((List.range' i k).map f) = (List.range' i (k + 1)).map fun j => siteAt L (u j) := by
  induction k with
  | zero => intro i _; rfl
  | succ k ih =>
    intro i h
    rw [List.range'_succ, List.map_cons, trail, ← h i (by omega), ih (i + 1) (fun j hj => h j (by omega)), List.range'_succ (n := k + 1),
      List.map_cons]

/-! ### Random sets -/

theorem choose_ratio {N n : Nat} (hn : n ≤ N) (q : Nat) : (N - q).choose (n - q) * N ^ q ≤ N.choose n * n ^ q ∨ n < q := by
  induction q with
  | zero => left; simp
  | succ q ih =>
    rcases Nat.lt_or_ge n (q + 1) with h | h
    · exact .inr h
    left
    rcases ih with ih | ih
    swap
    · omega
    obtain ⟨a, rfl⟩ : ∃ a, n = a + (q + 1) := ⟨n - (q + 1), by omega⟩
    obtain ⟨b, rfl⟩ : ∃ b, N = b + (q + 1) := ⟨N - (q + 1), by omega⟩
    rw [show b + (q + 1) - q = b + 1 by omega, show a + (q + 1) - q = a + 1 by omega] at ih
    rw [show b + (q + 1) - (q + 1) = b by omega, show a + (q + 1) - (q + 1) = a by omega]
    have e := Nat.add_one_mul_choose_eq b a
    have hab : a ≤ b := by omega
    have hx : (b + (q + 1)) * (a + 1) ≤ (b + 1) * (a + (q + 1)) := by nlinarith
    have : (b + 1) * (b.choose a * (b + (q + 1)) ^ (q + 1)) ≤ (b + 1) * ((b + (q + 1)).choose (a + (q + 1)) * (a + (q + 1)) ^ (q + 1)) := by
      calc (b + 1) * (b.choose a * (b + (q + 1)) ^ (q + 1)) = (b + 1) * b.choose a * (b + (q + 1)) ^ (q + 1) := by ring
        _ = (b + 1).choose (a + 1) * (b + (q + 1)) ^ q * ((b + (q + 1)) * (a + 1)) := by rw [e]; ring
        _ ≤ (b + (q + 1)).choose (a + (q + 1)) * (a + (q + 1)) ^ q * ((b + 1) * (a + (q + 1))) := Nat.mul_le_mul ih hx
        _ = _ := by ring
    exact Nat.le_of_mul_le_mul_left this (by omega)

theorem micro_le_sum {N n : Nat} {ι : Type} (I : Finset ι) {f : Finset Nat → ℝ} {g : ι → Finset Nat → ℝ}
    (h : ∀ T ∈ (Finset.range N).powersetCard n, f T ≤ ∑ i ∈ I, g i T) : micro N n f ≤ ∑ i ∈ I, micro N n (g i) := by
  unfold micro
  rw [← Finset.sum_div, Finset.sum_comm]
  exact div_le_div_of_nonneg_right (Finset.sum_le_sum h) (Nat.cast_nonneg _)

/-- The chance that `n` random sites contain `q` given ones is at most the `q`-th power of their density. -/
theorem micro_contains {N n : Nat} (hn : n ≤ N) {l : List Nat} (hl : l.Nodup) (hlt : ∀ s ∈ l, s < N) :
    micro N n (fun T => ind (∀ s ∈ l, s ∈ T)) ≤ ((n : ℝ) / N) ^ l.length := by
  classical
  have hsub : l.toFinset ⊆ Finset.range N := fun s hs => Finset.mem_range.2 (hlt s (List.mem_toFinset.1 hs))
  have hcard : l.toFinset.card = l.length := List.toFinset_card_of_nodup hl
  have hpos : (0 : ℝ) < N.choose n := by exact_mod_cast Nat.choose_pos hn
  unfold micro
  have e : (∑ T ∈ (Finset.range N).powersetCard n, ind (∀ s ∈ l, s ∈ T)) =
      (((Finset.range N).powersetCard n).filter fun T => ∀ s ∈ l, s ∈ T).card := by
    rw [Finset.card_filter]
    push_cast
    refine Finset.sum_congr rfl fun T _ => ?_
    unfold ind
    congr
  rw [e]
  rcases Nat.lt_or_ge n l.length with hlt' | hge
  · rw [Finset.filter_eq_empty_iff.2, Finset.card_empty]
    · simp only [Nat.cast_zero, zero_div]
      positivity
    · intro T hT hall
      have : l.toFinset ⊆ T := fun s hs => hall s (List.mem_toFinset.1 hs)
      have := Finset.card_le_card this
      rw [hcard, (Finset.mem_powersetCard.1 hT).2] at this
      omega
  · have hc : ((((Finset.range N).powersetCard n).filter fun T => ∀ s ∈ l, s ∈ T).card) ≤ (N - l.length).choose (n - l.length) := by
      rw [← hcard]
      have : (N - l.toFinset.card).choose (n - l.toFinset.card) =
          ((Finset.range N \ l.toFinset).powersetCard (n - l.toFinset.card)).card := by
        rw [Finset.card_powersetCard, Finset.card_sdiff_of_subset hsub, Finset.card_range]
      rw [this]
      refine Finset.card_le_card_of_injOn (fun T => T \ l.toFinset) ?_ ?_
      · intro T hT
        simp only [Finset.coe_filter, Set.mem_setOf_eq, Finset.mem_powersetCard] at hT
        obtain ⟨⟨h1, h2⟩, h3⟩ := hT
        have hlT : l.toFinset ⊆ T := fun s hs => h3 s (List.mem_toFinset.1 hs)
        rw [Finset.mem_coe, Finset.mem_powersetCard]
        refine ⟨Finset.sdiff_subset_sdiff h1 (Finset.Subset.refl _), ?_⟩
        rw [Finset.card_sdiff_of_subset hlT, h2]
      · intro T hT T' hT' h
        simp only [Finset.coe_filter, Set.mem_setOf_eq] at hT hT'
        have hlT : l.toFinset ⊆ T := fun s hs => hT.2 s (List.mem_toFinset.1 hs)
        have hlT' : l.toFinset ⊆ T' := fun s hs => hT'.2 s (List.mem_toFinset.1 hs)
        dsimp only at h
        rw [← Finset.sdiff_union_of_subset hlT, h, Finset.sdiff_union_of_subset hlT']
    rcases choose_ratio hn l.length with hr | hr
    swap
    · omega
    rcases Nat.eq_zero_or_pos N with rfl | hN
    · obtain rfl : l = [] := by
        rcases l with _ | ⟨a, l⟩
        · rfl
        · exact absurd (hlt a (List.mem_cons_self ..)) (by omega)
      simp only [List.length_nil, pow_zero]
      rw [div_le_one hpos]
      exact_mod_cast hc
    · rw [div_pow, div_le_div_iff₀ hpos (by positivity)]
      calc ((((Finset.range N).powersetCard n).filter fun T => ∀ s ∈ l, s ∈ T).card : ℝ) * (N : ℝ) ^ l.length
          ≤ ((N - l.length).choose (n - l.length) : ℝ) * (N : ℝ) ^ l.length :=
            mul_le_mul_of_nonneg_right (by exact_mod_cast hc) (by positivity)
        _ ≤ (N.choose n : ℝ) * (n : ℝ) ^ l.length := by exact_mod_cast hr
        _ = _ := by ring

/-- The number of the remaining sites. -/
theorem micro_compl {N n : Nat} (hn : n ≤ N) (f : Finset Nat → ℝ) : micro N n f = micro N (N - n) fun T => f (Finset.range N \ T) := by
  unfold micro
  rw [Nat.choose_symm hn]
  congr 1
  refine Finset.sum_nbij' (fun T => Finset.range N \ T) (fun T => Finset.range N \ T) ?_ ?_ ?_ ?_ ?_
  · intro T hT
    rw [Finset.mem_powersetCard] at hT ⊢
    exact ⟨Finset.sdiff_subset, by rw [Finset.card_sdiff_of_subset hT.1, Finset.card_range, hT.2]⟩
  · intro T hT
    rw [Finset.mem_powersetCard] at hT ⊢
    exact ⟨Finset.sdiff_subset, by rw [Finset.card_sdiff_of_subset hT.1, Finset.card_range, hT.2]; omega⟩
  · intro T hT
    exact Finset.sdiff_sdiff_eq_self (Finset.mem_powersetCard.1 hT).1
  · intro T hT
    exact Finset.sdiff_sdiff_eq_self (Finset.mem_powersetCard.1 hT).1
  · intro T hT
    rw [Finset.sdiff_sdiff_eq_self (Finset.mem_powersetCard.1 hT).1]

/-- If a property of the random sites requires that they contain an allowed path of `k` steps, then it is unlikely. -/
theorem micro_trails (hL : 0 < L) {δ σ : Type} [DecidableEq δ] (A : Rules δ σ) (s0 : σ) (vec : δ → Int × Int) {n k : Nat} (hn : n ≤ L * L)
    {P : Finset Nat → Prop}
    (h : ∀ T ⊆ Finset.range (L * L), P T → ∃ p, ∃ ds ∈ A.lists k s0, (trail L vec p ds).Nodup ∧ ∀ s ∈ trail L vec p ds, s ∈ T) :
    micro (L * L) n (fun T => ind (P T)) ≤ (L * L : Nat) * ((A.lists k s0).card : ℝ) * ((n : ℝ) / (L * L : Nat)) ^ (k + 1) := by
  classical
  let at' : Nat → Int × Int := fun s => ((s / L : Nat), (s % L : Nat))
  have hat : ∀ p, siteAt L (at' (siteAt L p)) = siteAt L p := by
    intro p
    have := siteAt_lt hL p
    show siteAt L (((siteAt L p / L : Nat) : Int), ((siteAt L p % L : Nat) : Int)) = _
    generalize siteAt L p = s at this
    have h1 : s / L < L := Nat.div_lt_of_lt_mul this
    unfold siteAt
    dsimp only
    rw [← Int.natCast_mod, ← Int.natCast_mod, Int.toNat_natCast, Int.toNat_natCast, Nat.mod_eq_of_lt h1, Nat.mod_mod]
    exact Nat.div_add_mod' s L
  have hb := micro_le_sum (N := L * L) (n := n) (f := fun T => ind (P T)) ((Finset.range (L * L)) ×ˢ (A.lists k s0))
    (g := fun i T => ind ((trail L vec (at' i.1) i.2).Nodup ∧ ∀ s ∈ trail L vec (at' i.1) i.2, s ∈ T)) (by
      intro T hT
      by_cases hP : P T
      · obtain ⟨p, ds, hds, h1, h2⟩ := h T (Finset.mem_powersetCard.1 hT).1 hP
        have hmem : (siteAt L p, ds) ∈ (Finset.range (L * L)) ×ˢ (A.lists k s0) :=
          Finset.mem_product.2 ⟨Finset.mem_range.2 (siteAt_lt hL p), hds⟩
        refine le_trans ?_ (Finset.single_le_sum (fun i _ => ind_nonneg _) hmem)
        dsimp only
        rw [trail_congr hL ds (hat p), ind, ind, if_pos hP, if_pos ⟨h1, h2⟩]
      · rw [ind, if_neg hP]
        exact Finset.sum_nonneg fun i _ => ind_nonneg _)
  refine hb.trans ?_
  refine (Finset.sum_le_card_nsmul _ _ (((n : ℝ) / (L * L : Nat)) ^ (k + 1)) ?_).trans (le_of_eq ?_)
  · rintro ⟨s, ds⟩ hi
    have hds := (Finset.mem_product.1 hi).2
    have hlen := trail_length (L := L) (vec := vec) ds (at' s)
    rw [A.length k s0 ds hds] at hlen
    dsimp only
    by_cases hnd : (trail L vec (at' s) ds).Nodup
    · have := micro_contains hn hnd (trail_lt hL ds _)
      rw [hlen] at this
      simpa only [hnd, true_and] using this
    · simp only [hnd, false_and]
      have : micro (L * L) n (fun _ => ind False) = 0 := by simp [micro, ind]
      rw [this]
      positivity
  · rw [Finset.card_product, Finset.card_range, nsmul_eq_mul]
    push_cast
    ring

end SqPerc
