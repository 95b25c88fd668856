import Verif.Proof.Dual
/-
How few sites can be empty in a configuration that does not wrap: `L + ⌊(L - 1) / 2⌋`.

The empty sites contain two independent closed paths.  A shortest closed path around the lattice has at least `L` sites; a path that leaves it and
comes back, or stays away from it, in another direction adds at least half as many.
-/
namespace SqPerc

variable {L : Nat} {em : Nat → Prop}

/-- A path of `n` straight or diagonal steps in the plane over sites with `em`. -/
inductive EPath (L : Nat) (em : Nat → Prop) : Nat → Int × Int → Int × Int → Prop
  | nil {p : Int × Int} (h : em (siteAt L p)) : EPath L em 0 p p
  | snoc {n : Nat} {p q r : Int × Int} (h : EPath L em n p q) (hr : em (siteAt L r)) (hn : Near q r) : EPath L em (n + 1) p r

namespace EPath

theorem left {n : Nat} {p q : Int × Int} (h : EPath L em n p q) : em (siteAt L p) := by
  induction h with
  | nil h => exact h
  | snoc _ _ _ ih => exact ih

theorem right {n : Nat} {p q : Int × Int} (h : EPath L em n p q) : em (siteAt L q) := by
  cases h with
  | nil h => exact h
  | snoc _ h _ => exact h

theorem append {n m : Nat} {p q r : Int × Int} (h : EPath L em n p q) (h' : EPath L em m q r) : EPath L em (n + m) p r := by
  induction h' with
  | nil _ => exact h
  | snoc _ hr hn ih => exact (ih h).snoc hr hn

theorem reverse {n : Nat} {p q : Int × Int} (h : EPath L em n p q) : EPath L em n q p := by
  induction h with
  | nil h => exact .nil h
  | @snoc n p q r h hr hn ih =>
    rw [Nat.add_comm]
    exact ((EPath.nil hr).snoc h.right (near_symm hn)).append ih

theorem mono {em' : Nat → Prop} (hsub : ∀ s, em s → em' s) {n : Nat} {p q : Int × Int} (h : EPath L em n p q) : EPath L em' n p q := by
  induction h with
  | nil h => exact .nil (hsub _ h)
  | snoc _ hr hn ih => exact ih.snoc (hsub _ hr) hn

theorem shift {n : Nat} {p q o : Int × Int} (per : ∀ x, siteAt L (x + o) = siteAt L x) (h : EPath L em n p q) : EPath L em n (p + o) (q + o) := by
  induction h with
  | nil h => exact .nil (by rwa [per])
  | snoc _ hr hn ih => exact ih.snoc (by rwa [per]) (near_shift hn o)

theorem le {n : Nat} {p q : Int × Int} (h : EPath L em n p q) : (-(n : Int) ≤ q.1 - p.1 ∧ q.1 - p.1 ≤ n) ∧ -(n : Int) ≤ q.2 - p.2 ∧ q.2 - p.2 ≤ n := by
  induction h with
  | nil _ => simp
  | snoc _ _ hn ih =>
    simp only [Near] at hn
    push_cast
    omega

theorem points {n : Nat} {p q : Int × Int} (h : EPath L em n p q) : ∃ u : Nat → Int × Int, u 0 = p ∧ u n = q ∧ ∀ i j, i ≤ j → j ≤ n →
    EPath L em (j - i) (u i) (u j) := by
  induction h with
  | @nil p h =>
    refine ⟨fun _ => p, rfl, rfl, ?_⟩
    intro i j hij hj
    obtain rfl : j = 0 := by omega
    rw [Nat.zero_sub]
    exact .nil h
  | @snoc n p q r h hr hn ih =>
    obtain ⟨u, h1, h2, h3⟩ := ih
    refine ⟨fun i => if i ≤ n then u i else r, by simp [h1], by simp, ?_⟩
    intro i j hij hj
    dsimp only
    by_cases hjn : j ≤ n
    · rw [if_pos hjn, if_pos (by omega)]
      exact h3 i j hij hjn
    · obtain rfl : j = n + 1 := by omega
      rw [if_neg hjn]
      by_cases hi : i ≤ n
      · rw [if_pos hi, show n + 1 - i = n - i + 1 by omega]
        exact .snoc (h3 i n hi le_rfl) hr (h2 ▸ hn)
      · rw [if_neg hi, show n + 1 - i = 0 by omega]
        exact .nil hr

end EPath

theorem siteAt_period (hL : 0 < L) {p q : Int × Int} (h : siteAt L p = siteAt L q) (x : Int × Int) : siteAt L (x + (q - p)) = siteAt L x := by
  have := siteAt_add_congr hL h (x - p)
  rw [show p + (x - p) = x by abel, show q + (x - p) = x + (q - p) by abel] at this
  exact this.symm

/-- Paths may be joined at copies of the same site. -/
theorem EPath.glue (hL : 0 < L) {n m : Nat} {p q p' q' : Int × Int} (h : EPath L em n p q) (h' : EPath L em m p' q') (e : siteAt L q = siteAt L p') :
    EPath L em (n + m) p (q' + (q - p')) ∧ siteAt L (q' + (q - p')) = siteAt L q' := by
  have per := siteAt_period hL e.symm
  refine ⟨h.append ?_, per _⟩
  have := h'.shift per
  rwa [add_sub_cancel] at this

theorem EmptyConn.path {occ : Nat → Prop} {p q : Int × Int} (h : EmptyConn L occ p q) (hp : ¬ occ (siteAt L p)) : ∃ n, EPath L (fun s => ¬ occ s) n p q := by
  induction h with
  | refl => exact ⟨0, .nil hp⟩
  | tail _ h ih =>
    obtain ⟨n, hn⟩ := ih
    exact ⟨n + 1, hn.snoc h.2.1 h.2.2⟩

/-- A closed path around the lattice has at least `L` steps. -/
theorem EPath.length_ge (hL : 0 < L) {n : Nat} {p q : Int × Int} (h : EPath L em n p q) (e : siteAt L p = siteAt L q) (hne : q - p ≠ 0) : L ≤ n := by
  obtain ⟨h1, h2⟩ := h.le
  obtain ⟨e1, e2⟩ := (siteAt_eq_iff hL).1 e
  have d1 : (L : Int) ∣ q.1 - p.1 := Int.ModEq.dvd e1
  have d2 : (L : Int) ∣ q.2 - p.2 := Int.ModEq.dvd e2
  by_contra hc
  apply hne
  refine Prod.ext ?_ ?_
  · exact Int.eq_zero_of_abs_lt_dvd d1 (show |q.1 - p.1| < L by rw [abs_lt]; constructor <;> omega)
  · exact Int.eq_zero_of_abs_lt_dvd d2 (show |q.2 - p.2| < L by rw [abs_lt]; constructor <;> omega)

/-- A shortest closed path whose displacement is counted by `θ` visits different sites. -/
theorem shortest_loop {G : Type} [AddCommGroup G] (hL : 0 < L) (θ : Int × Int →+ G)
    (hex : ∃ n p q, siteAt L p = siteAt L q ∧ θ (q - p) ≠ 0 ∧ EPath L em n p q) : ∃ (n : Nat) (u : Nat → Int × Int),
      siteAt L (u 0) = siteAt L (u n) ∧ θ (u n - u 0) ≠ 0 ∧ (∀ i j, i ≤ j → j ≤ n → EPath L em (j - i) (u i) (u j)) ∧
      (∀ i < n, ∀ j < n, siteAt L (u i) = siteAt L (u j) → i = j) ∧
      ∀ m p q, siteAt L p = siteAt L q → θ (q - p) ≠ 0 → EPath L em m p q → n ≤ m := by
  classical
  obtain ⟨p, q, h1, h2, h3⟩ := Nat.find_spec hex
  have hmin : ∀ m p q, siteAt L p = siteAt L q → θ (q - p) ≠ 0 → EPath L em m p q → Nat.find hex ≤ m := fun m p q a b c =>
    Nat.find_min' hex ⟨p, q, a, b, c⟩
  obtain ⟨u, rfl, e, hu⟩ := h3.points
  generalize Nat.find hex = n at *
  subst e
  refine ⟨n, u, h1, h2, hu, ?_, hmin⟩
  have key : ∀ i j, i < j → j < n → siteAt L (u i) ≠ siteAt L (u j) := by
    intro i j hij hj e
    have seg := hu i j hij.le hj.le
    by_cases hz : θ (u j - u i) = 0
    · obtain ⟨g1, g2⟩ := (hu 0 i (by omega) (by omega)).glue hL (hu j n hj.le le_rfl) e
      have := hmin _ _ _ (h1.trans g2.symm) (by
        rwa [show u n + (u i - u j) - u 0 = (u n - u 0) - (u j - u i) by abel, map_sub, hz, sub_zero]) g1
      omega
    · have := hmin _ _ _ e hz seg
      omega
  intro i hi j hj e
  rcases lt_trichotomy i j with h | h | h
  · exact absurd e (key i j h hj)
  · exact h
  · exact absurd e.symm (key j i h hi)

/-- The direction across `w`. -/
def across (w : Int × Int) : Int × Int →+ Int where
  toFun v := w.1 * v.2 - w.2 * v.1
  map_zero' := by simp
  map_add' a b := by simp only [Prod.fst_add, Prod.snd_add]; ring

theorem across_self (w : Int × Int) : across w w = 0 := by
  show w.1 * w.2 - w.2 * w.1 = 0
  ring

/-- A closed path of empty sites and another one that is not parallel to it: the number of sites they need. -/
theorem card_of_two_loops (hL : 0 < L) {X : Finset Nat} (hX : ∀ s, s < L * L → em s → s ∈ X)
    (hone : ∀ w : Int × Int, w ≠ 0 → ∃ n p q, siteAt L p = siteAt L q ∧ across w (q - p) ≠ 0 ∧ EPath L em n p q) : L + (L - 1) / 2 ≤ X.card := by
  classical
  -- a shortest closed path
  obtain ⟨l, u, h1, h2, hu, hinj, hmin⟩ := shortest_loop (em := em) hL (AddMonoidHom.id (Int × Int)) (by
    obtain ⟨n, p, q, a, b, c⟩ := hone (1, 0) (by decide)
    exact ⟨n, p, q, a, fun h => b (by rw [show q - p = 0 from h, map_zero]), c⟩)
  simp only [AddMonoidHom.id_apply] at h2 hmin
  have hl : L ≤ l := by
    have := (hu 0 l (by omega) le_rfl).length_ge hL h1 h2
    omega
  generalize hw : u l - u 0 = w at h2
  let Γ : Finset Nat := (Finset.range l).image fun i => siteAt L (u i)
  have hΓ : Γ.card = l := by
    rw [Finset.card_image_of_injOn, Finset.card_range]
    intro i hi j hj e
    exact hinj i (Finset.mem_range.1 hi) j (Finset.mem_range.1 hj) e
  have hem : ∀ i ≤ l, em (siteAt L (u i)) := fun i hi => (hu i i le_rfl hi).left
  have hΓX : Γ ⊆ X := by
    intro s hs
    obtain ⟨i, hi, rfl⟩ := Finset.mem_image.1 hs
    exact hX _ (siteAt_lt hL _) (hem i (Finset.mem_range.1 hi).le)
  have hess : ∀ {v : Int × Int}, across w v ≠ 0 → v ≠ 0 := fun h e => h (by rw [e, map_zero])
  have total : ∀ {n : Nat} {t : Nat → Int × Int}, (∀ i < n, em (siteAt L (t i)) ∧ siteAt L (t i) ∉ Γ) →
      (∀ i < n, ∀ j < n, siteAt L (t i) = siteAt L (t j) → i = j) → l + n ≤ X.card := by
    intro n t ht htinj
    let Δ : Finset Nat := (Finset.range n).image fun i => siteAt L (t i)
    have hΔ : Δ.card = n := by
      rw [Finset.card_image_of_injOn, Finset.card_range]
      intro i hi j hj e
      exact htinj i (Finset.mem_range.1 hi) j (Finset.mem_range.1 hj) e
    have hd : Disjoint Γ Δ := by
      rw [Finset.disjoint_right]
      intro s hs
      obtain ⟨i, hi, rfl⟩ := Finset.mem_image.1 hs
      exact (ht i (Finset.mem_range.1 hi)).2
    have hs : Γ ∪ Δ ⊆ X := Finset.union_subset hΓX fun s hs => by
      obtain ⟨i, hi, rfl⟩ := Finset.mem_image.1 hs
      exact hX _ (siteAt_lt hL _) (ht i (Finset.mem_range.1 hi)).1
    have := Finset.card_le_card hs
    rwa [Finset.card_union_of_disjoint hd, hΓ, hΔ] at this
  by_cases hA : ∃ n p q, siteAt L p = siteAt L q ∧ across w (q - p) ≠ 0 ∧ EPath L (fun s => em s ∧ s ∉ Γ) n p q
  · -- a closed path away from the first one
    obtain ⟨m, t, t1, t2, ht, htinj, _⟩ := shortest_loop hL (across w) hA
    have hlm : l ≤ m := by
      have := hmin _ _ _ t1 (hess t2) ((ht 0 m (by omega) le_rfl).mono fun s h => h.1)
      omega
    have := total (n := m) (t := t) (fun i hi => (ht i i le_rfl hi.le).left) htinj
    omega
  · -- a path that leaves the first one and comes back
    have hchord : ∃ m a b p q, a < l ∧ b < l ∧ siteAt L p = siteAt L (u a) ∧ siteAt L q = siteAt L (u b) ∧ across w (q - p) ≠ across w (u b - u a) ∧
        EPath L em m p q := by
      obtain ⟨n, p, q, g1, g2, g3⟩ := hone w h2
      obtain ⟨t, rfl, rfl, ht⟩ := g3.points
      by_cases hmeet : ∃ i ≤ n, siteAt L (t i) ∈ Γ
      · obtain ⟨i, hi, hm⟩ := hmeet
        obtain ⟨a, ha, e⟩ := Finset.mem_image.1 hm
        obtain ⟨k1, k2⟩ := (ht i n hi le_rfl).glue hL (ht 0 i (by omega) hi) g1.symm
        refine ⟨_, a, a, _, _, Finset.mem_range.1 ha, Finset.mem_range.1 ha, e.symm, k2.trans e.symm, ?_, k1⟩
        rwa [sub_self, map_zero, show t i + (t n - t 0) - t i = t n - t 0 by abel]
      · exfalso
        push Not at hmeet
        apply hA
        have : ∀ j ≤ n, EPath L (fun s => em s ∧ s ∉ Γ) j (t 0) (t j) := by
          intro j
          induction j with
          | zero => intro h; exact .nil ⟨(ht 0 0 le_rfl h).left, hmeet 0 h⟩
          | succ j ih =>
            intro h
            refine (ih (by omega)).snoc ⟨(ht _ _ le_rfl h).left, hmeet _ h⟩ ?_
            have := (ht j (j + 1) (by omega) h).le
            simp only [Near]
            push_cast [Nat.add_sub_cancel_left] at this
            omega
        exact ⟨n, t 0, t n, g1, g2, this n le_rfl⟩
    obtain ⟨a, b, p, q, ha, hb, c1, c2, c3, c4⟩ := Nat.find_spec hchord
    have cmin : ∀ m a b p q, a < l → b < l → siteAt L p = siteAt L (u a) → siteAt L q = siteAt L (u b) → across w (q - p) ≠ across w (u b - u a) →
        EPath L em m p q → Nat.find hchord ≤ m := fun m a b p q h1 h2 h3 h4 h5 h6 => Nat.find_min' hchord ⟨a, b, p, q, h1, h2, h3, h4, h5, h6⟩
    obtain ⟨e, rfl, eq, he⟩ := c4.points
    generalize Nat.find hchord = m at *
    subst eq
    -- its inner sites are not on the first path
    have hoff : ∀ i, 0 < i → i < m → siteAt L (e i) ∉ Γ := by
      intro i hi0 him hmem
      obtain ⟨c, hc, ec⟩ := Finset.mem_image.1 hmem
      have hc := Finset.mem_range.1 hc
      by_cases hx : across w (e i - e 0) = across w (u c - u a)
      · have := cmin _ c b _ _ hc hb ec.symm c2 (fun hy => c3 (by
          rw [show e m - e 0 = (e m - e i) + (e i - e 0) by abel, map_add, hx, hy, ← map_add]
          congr 1; abel)) (he i m him.le le_rfl)
        omega
      · have := cmin _ a c _ _ ha hc c1 ec.symm hx (he 0 i (by omega) him.le)
        omega
    have hin : ∀ i < m, i ≠ 0 → em (siteAt L (e i)) ∧ siteAt L (e i) ∉ Γ := fun i hi h0 => ⟨(he i i le_rfl hi.le).left, hoff i (by omega) hi⟩
    -- and are different
    have hdiff : ∀ i j, 0 < i → i < j → j < m → siteAt L (e i) ≠ siteAt L (e j) := by
      intro i j hi hij hj es
      by_cases hz : across w (e j - e i) = 0
      · obtain ⟨k1, k2⟩ := (he 0 i (by omega) (by omega)).glue hL (he j m hj.le le_rfl) es
        have := cmin _ a b _ _ ha hb c1 (k2.trans c2) (by
          rwa [show e m + (e i - e j) - e 0 = (e m - e 0) - (e j - e i) by abel, map_sub, hz, sub_zero]) k1
        omega
      · apply hA
        have : ∀ k, i + k ≤ j → EPath L (fun s => em s ∧ s ∉ Γ) k (e i) (e (i + k)) := by
          intro k
          induction k with
          | zero => intro h; exact .nil (hin i (by omega) (by omega))
          | succ k ih =>
            intro h
            refine (ih (by omega)).snoc (hin _ (by omega) (by omega)) ?_
            have := (he (i + k) (i + (k + 1)) (by omega) (by omega)).le
            rw [show i + (k + 1) - (i + k) = 1 by omega] at this
            simp only [Near]
            push_cast at this
            exact this
        have hk := this (j - i) (by omega)
        rw [show i + (j - i) = j by omega] at hk
        exact ⟨_, _, _, es, hz, hk⟩
    -- closing it along either part of the first path
    have hlong : l ≤ 2 * m := by
      have em0 := he 0 m (by omega) le_rfl
      have close : ∀ a b, a ≤ b → b < l → ∀ p q, siteAt L p = siteAt L (u a) → siteAt L q = siteAt L (u b) → across w (q - p) ≠ across w (u b - u a) →
          EPath L em m p q → l ≤ 2 * m := by
        intro a b hab hb p q d1 d2 d3 d4
        -- back along the part between
        obtain ⟨k1, k2⟩ := d4.glue hL (hu a b hab hb.le).reverse d2
        have r1 := hmin _ _ _ (d1.trans k2.symm) (hess (v := u a + (q - u b) - p) (by
          rw [show u a + (q - u b) - p = (q - p) - (u b - u a) by abel, map_sub, sub_ne_zero]
          exact d3)) k1
        -- on along the rest
        obtain ⟨j1, j2⟩ := (hu b l hb.le le_rfl).glue hL (hu 0 a (by omega) (by omega)) h1.symm
        obtain ⟨k1, k2⟩ := d4.glue hL j1 d2
        have r2 := hmin _ _ _ (d1.trans (k2.trans j2).symm) (hess (v := u a + (u l - u 0) + (q - u b) - p) (by
          rw [show u a + (u l - u 0) + (q - u b) - p = (q - p) - (u b - u a) + (u l - u 0) by abel, map_add, hw, across_self, add_zero, map_sub, sub_ne_zero]
          exact d3)) k1
        omega
      rcases le_total a b with hab | hab
      · exact close a b hab hb _ _ c1 c2 c3 em0
      · refine close b a hab ha _ _ c2 c1 (fun h => c3 ?_) em0.reverse
        have := congrArg Neg.neg h
        rwa [← map_neg, ← map_neg, neg_sub, neg_sub] at this
    have := total (n := m - 1) (t := fun i => e (i + 1)) (fun i hi => hin _ (by omega) (by omega)) (by
      intro i hi j hj es
      rcases lt_trichotomy i j with h | h | h
      · exact absurd es (hdiff _ _ (by omega) (by omega) (by omega))
      · exact h
      · exact absurd es.symm (hdiff _ _ (by omega) (by omega) (by omega)))
    omega

/-- A configuration with fewer than `L + ⌊(L - 1) / 2⌋` empty sites wraps. -/
theorem wraps_of_fewer_empty (hL : 0 < L) {q : List Nat} (hq : q.Nodup) (hlt : ∀ s ∈ q, s < L * L) (h : L * L < q.length + L + (L - 1) / 2) :
    Wraps L (· ∈ q) := by
  classical
  by_contra hn
  have := card_of_two_loops (em := fun s => s ∉ q) hL (X := Finset.range (L * L) \ q.toFinset) (by
    intro s hs hsq
    simp [hs, hsq]) (by
    intro w hw
    obtain ⟨v, ⟨p, e, hc⟩, hv⟩ := emptyLoop_of_not_wraps hL (occ := (· ∈ q)) hlt hn (a := -w.2) (b := w.1) (by
      by_contra hcon
      push Not at hcon
      exact hw (Prod.ext hcon.2 (by simpa using hcon.1)))
    have hp : siteAt L p ∉ q := by
      rcases Relation.ReflTransGen.cases_head hc with h | ⟨_, h, _⟩
      · exfalso
        have : v = 0 := by simpa using h.symm
        rw [this] at hv
        simp at hv
      · exact h.1
    obtain ⟨n, hn⟩ := hc.path hp
    refine ⟨n, p, p + v, e.symm, ?_, hn⟩
    rw [add_sub_cancel_left]
    show w.1 * v.2 - w.2 * v.1 ≠ 0
    intro h0
    exact hv (by linear_combination h0))
  have hsub : q.toFinset ⊆ Finset.range (L * L) := fun s hs => Finset.mem_range.2 (hlt s (List.mem_toFinset.1 hs))
  have hc := Finset.card_sdiff_add_card_eq_card hsub
  rw [List.toFinset_card_of_nodup hq, Finset.card_range] at hc
  omega

end SqPerc
