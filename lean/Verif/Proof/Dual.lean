import Verif.Spec.Dual
import Verif.Proof.Cross
import Verif.Props.Plane
/-
Either the occupied sites wrap around the periodic lattice or the empty sites do, with diagonal steps, in two independent directions.

If the occupied sites do not wrap they can be drawn in the plane; the defects of the drawing at the other bonds have no rotation.  If the empty
sites had only parallel closed paths, the plaquettes next to them would carry a potential that grows uniformly in the remaining direction.  Summation
by parts of the product of the two contradicts the total winding.
-/
namespace SqPerc

variable {L : Nat} {occ : Nat → Prop}

/-! ### Copies of a site -/

theorem siteAt_eq_iff (hL : 0 < L) {p q : Int × Int} : siteAt L p = siteAt L q ↔ p.1 % L = q.1 % L ∧ p.2 % L = q.2 % L := by
  have h1 := Int.emod_nonneg p.1 (show (L : Int) ≠ 0 by omega)
  have h2 := Int.emod_nonneg p.2 (show (L : Int) ≠ 0 by omega)
  have h3 := Int.emod_nonneg q.1 (show (L : Int) ≠ 0 by omega)
  have h4 := Int.emod_nonneg q.2 (show (L : Int) ≠ 0 by omega)
  constructor
  · intro h
    obtain ⟨a, b⟩ := rc_inj (emod_toNat_lt hL _) (emod_toNat_lt hL _) h
    omega
  · rintro ⟨a, b⟩
    unfold siteAt
    rw [a, b]

theorem siteAt_add_congr (hL : 0 < L) {p q : Int × Int} (h : siteAt L p = siteAt L q) (o : Int × Int) : siteAt L (p + o) = siteAt L (q + o) := by
  rw [siteAt_eq_iff hL] at h ⊢
  simp only [Prod.fst_add, Prod.snd_add]
  rw [Int.add_emod, h.1, ← Int.add_emod, Int.add_emod p.2, h.2, ← Int.add_emod]
  exact ⟨rfl, rfl⟩

theorem near_shift {p q : Int × Int} (h : Near p q) (o : Int × Int) : Near (p + o) (q + o) := by
  simp only [Near, Prod.fst_add, Prod.snd_add] at *
  omega

theorem near_symm {p q : Int × Int} (h : Near p q) : Near q p := by
  simp only [Near] at *
  omega

theorem EmptyConn.trans {p q r : Int × Int} (h : EmptyConn L occ p q) (h' : EmptyConn L occ q r) : EmptyConn L occ p r :=
  Relation.ReflTransGen.trans h h'

theorem EmptyConn.symm {p q : Int × Int} (h : EmptyConn L occ p q) : EmptyConn L occ q p := by
  induction h with
  | refl => exact .refl
  | tail _ h ih => exact Relation.ReflTransGen.head ⟨h.2.1, h.1, near_symm h.2.2⟩ ih

/-- A path may be moved by a period. -/
theorem EmptyConn.shift (hL : 0 < L) {p q o : Int × Int} (ho : siteAt L (p + o) = siteAt L p) (h : EmptyConn L occ p q) :
    EmptyConn L occ (p + o) (q + o) := by
  have per : ∀ x, siteAt L (x + o) = siteAt L x := by
    intro x
    have := siteAt_add_congr hL ho (x - p)
    rwa [show p + o + (x - p) = x + o by abel, show p + (x - p) = x by abel] at this
  induction h with
  | refl => exact .refl
  | @tail a b _ h ih =>
    refine ih.tail ⟨?_, ?_, near_shift h.2.2 o⟩
    · rw [per]; exact h.1
    · rw [per]; exact h.2.1

/-! ### Potentials -/

/-- Labelled connections without non-trivial closed ones have a potential. -/
theorem exists_label_potential {G : Type} [AddCommGroup G] {R : Nat → Nat → G → Prop} (symm : ∀ {x y a}, R x y a → R y x (-a))
    (trans : ∀ {x y z a b}, R x y a → R y z b → R x z (a + b)) (closed : ∀ {x a}, R x x a → a = 0) :
    ∃ f : Nat → G, ∀ x y a, R x y a → f y - f x = a := by
  classical
  let P : Nat → Nat → Prop := fun x y => ∃ a, R y x a
  have self : ∀ {x y a}, R x y a → ∃ z, P x z := fun h => ⟨_, _, symm h⟩
  have hmin : ∀ {x y a}, R x y a → (h : ∃ z, P x z) → (h' : ∃ z, P y z) → Nat.find h = Nat.find h' := by
    intro x y a hR h h'
    apply le_antisymm
    · obtain ⟨b, hb⟩ := Nat.find_spec h'
      exact Nat.find_min' h ⟨b + -a, trans hb (symm hR)⟩
    · obtain ⟨b, hb⟩ := Nat.find_spec h
      exact Nat.find_min' h' ⟨b + a, trans hb hR⟩
  refine ⟨fun x => if h : ∃ z, P x z then (Nat.find_spec h).choose else 0, ?_⟩
  intro x y a hR
  have hx := self hR
  have hy := self (symm hR)
  simp only
  rw [dif_pos hx, dif_pos hy]
  have sx := (Nat.find_spec hx).choose_spec
  have sy := (Nat.find_spec hy).choose_spec
  have key : ∀ {m n : Nat} {b c : G}, m = n → R m x b → R n y c → c - b = a := by
    rintro m n b c rfl h1 h2
    have := closed (trans (trans h1 hR) (symm h2))
    rw [← sub_eq_add_neg, sub_eq_zero] at this
    rw [← this]; abel
  exact key (hmin hR hx hy) sx sy

/-! ### Sums over all sites -/

/-- The sum over all sites. -/
def siteSum (L : Nat) (F : Nat → Int) : Int := ∑ r ∈ Finset.range L, ∑ c ∈ Finset.range L, F (r * L + c)

theorem siteSum_congr {F G : Nat → Int} (h : ∀ s < L * L, F s = G s) : siteSum L F = siteSum L G :=
  Finset.sum_congr rfl fun _ hr => Finset.sum_congr rfl fun _ hc => h _ (rc_lt (Finset.mem_range.1 hr) (Finset.mem_range.1 hc))

theorem siteSum_right (F : Nat → Int) : siteSum L (fun s => F (nbr L s .right)) = siteSum L F := by
  refine Finset.sum_congr rfl fun r _ => ?_
  rw [← sum_rotate fun c => F (r * L + c)]
  exact Finset.sum_congr rfl fun c hc => by dsimp only; rw [nbr_right_rc (Finset.mem_range.1 hc)]

theorem siteSum_down (F : Nat → Int) : siteSum L (fun s => F (nbr L s .down)) = siteSum L F := by
  unfold siteSum
  rw [← sum_rotate fun r => ∑ c ∈ Finset.range L, F (r * L + c)]
  exact Finset.sum_congr rfl fun r _ => Finset.sum_congr rfl fun c hc => by dsimp only; rw [nbr_down_rc (Finset.mem_range.1 hc)]

theorem siteSum_add (F G : Nat → Int) : siteSum L (fun s => F s + G s) = siteSum L F + siteSum L G := by
  simp only [siteSum, Finset.sum_add_distrib]

theorem siteSum_sub (F G : Nat → Int) : siteSum L (fun s => F s - G s) = siteSum L F - siteSum L G := by
  simp only [siteSum, Finset.sum_sub_distrib]

theorem siteSum_mul (k : Int) (F : Nat → Int) : siteSum L (fun s => k * F s) = k * siteSum L F := by
  simp only [siteSum, Finset.mul_sum]

theorem siteSum_const (k : Int) : siteSum L (fun _ => k) = L * L * k := by
  simp [siteSum]; ring

theorem nbr_right_down {s : Nat} (hs : s < L * L) : nbr L (nbr L s .right) .down = nbr L (nbr L s .down) .right := by
  obtain ⟨r, c, hr, hc, rfl⟩ := exists_rc hs
  rw [nbr_right_rc hc, nbr_down_rc (succ_mod_lt hc), nbr_down_rc hc, nbr_right_rc hc]

/-- Summation by parts: `f` grows by `A` to the right and by `B` downwards along occupied bonds, `g` grows by `a` and `b` across the other
bonds. -/
theorem sum_by_parts {f g : Nat → Int} {A B a b : Int} (hL : 0 < L)
    (fr : ∀ s < L * L, occ s → occ (nbr L s .right) → f (nbr L s .right) - f s = A)
    (fd : ∀ s < L * L, occ s → occ (nbr L s .down) → f (nbr L s .down) - f s = B)
    (gr : ∀ s < L * L, ¬ (occ s ∧ occ (nbr L s .right)) → g s - g (nbr L s .up) = a)
    (gd : ∀ s < L * L, ¬ (occ s ∧ occ (nbr L s .down)) → g s - g (nbr L s .left) = b) : a * A = b * B := by
  have e1 : siteSum L (fun s => (f (nbr L s .right) - f s - A) * (g s - g (nbr L s .up)) - (f (nbr L s .down) - f s - B) * (g s - g (nbr L s .left))) =
      siteSum L (fun s => a * (f (nbr L s .right) - f s - A) - b * (f (nbr L s .down) - f s - B)) := by
    refine siteSum_congr fun s hs => ?_
    by_cases h1 : occ s ∧ occ (nbr L s .right)
    · rw [fr s hs h1.1 h1.2]
      by_cases h2 : occ s ∧ occ (nbr L s .down)
      · rw [fd s hs h2.1 h2.2]; ring
      · rw [gd s hs h2]; ring
    · rw [gr s hs h1]
      by_cases h2 : occ s ∧ occ (nbr L s .down)
      · rw [fd s hs h2.1 h2.2]; ring
      · rw [gd s hs h2]; ring
  have e2 : siteSum L (fun s => a * (f (nbr L s .right) - f s - A) - b * (f (nbr L s .down) - f s - B)) = L * L * (b * B - a * A) := by
    rw [siteSum_sub, siteSum_mul, siteSum_mul, siteSum_sub, siteSum_sub, siteSum_sub, siteSum_sub, siteSum_right, siteSum_down, siteSum_const, siteSum_const]
    ring
  have e3 : siteSum L (fun s => (f (nbr L s .right) - f s - A) * g (nbr L s .up)) =
      siteSum L (fun s => (f (nbr L (nbr L s .down) .right) - f (nbr L s .down) - A) * g s) := by
    rw [← siteSum_down]
    refine siteSum_congr fun s hs => ?_
    rw [show nbr L (nbr L s .down) .up = s from nbr_opp hs .down]
  have e4 : siteSum L (fun s => (f (nbr L s .down) - f s - B) * g (nbr L s .left)) =
      siteSum L (fun s => (f (nbr L (nbr L s .right) .down) - f (nbr L s .right) - B) * g s) := by
    rw [← siteSum_right]
    refine siteSum_congr fun s hs => ?_
    rw [show nbr L (nbr L s .right) .left = s from nbr_opp hs .right]
  have e5 : siteSum L (fun s => (f (nbr L s .right) - f s - A) * (g s - g (nbr L s .up)) - (f (nbr L s .down) - f s - B) * (g s - g (nbr L s .left))) = 0 := by
    have : siteSum L (fun s => (f (nbr L s .right) - f s - A) * (g s - g (nbr L s .up)) - (f (nbr L s .down) - f s - B) * (g s - g (nbr L s .left))) =
        siteSum L (fun s => (f (nbr L s .right) - f s - A) * g s - (f (nbr L s .down) - f s - B) * g s) -
        siteSum L (fun s => (f (nbr L s .right) - f s - A) * g (nbr L s .up)) + siteSum L (fun s => (f (nbr L s .down) - f s - B) * g (nbr L s .left)) := by
      rw [← siteSum_sub, ← siteSum_add]
      exact siteSum_congr fun s _ => by ring
    rw [this, e3, e4, ← siteSum_sub, ← siteSum_add]
    rw [siteSum_congr (G := fun _ => 0)]
    · simp [siteSum]
    · intro s hs
      rw [nbr_right_down hs]; ring
  rw [e5, e2, eq_comm, mul_eq_zero] at e1
  have : (L : Int) * L ≠ 0 := by
    have : (0 : Int) < L := by omega
    positivity
  linarith [e1.resolve_left this]

/-! ### Duality -/

theorem siteAt_right (hL : 0 < L) (p : Int × Int) : siteAt L (p + (0, 1)) = nbr L (siteAt L p) .right := siteAt_step hL p .right
theorem siteAt_down (hL : 0 < L) (p : Int × Int) : siteAt L (p + (1, 0)) = nbr L (siteAt L p) .down := siteAt_step hL p .down
theorem siteAt_left (hL : 0 < L) (p : Int × Int) : siteAt L (p + (0, -1)) = nbr L (siteAt L p) .left := siteAt_step hL p .left
theorem siteAt_up (hL : 0 < L) (p : Int × Int) : siteAt L (p + (-1, 0)) = nbr L (siteAt L p) .up := siteAt_step hL p .up

/-- If the occupied sites do not wrap, the empty sites wrap across every direction. -/
theorem emptyLoop_of_not_wraps (hL : 0 < L) (hocc : ∀ s, occ s → s < L * L) (hn : ¬ Wraps L occ) {a b : Int} (hab : a ≠ 0 ∨ b ≠ 0) :
    ∃ w, EmptyLoop L occ w ∧ a * w.1 + b * w.2 ≠ 0 := by
  classical
  by_contra hcon
  have hcon : ∀ w, EmptyLoop L occ w → a * w.1 + b * w.2 = 0 := fun w hw => by
    by_contra h
    exact hcon ⟨w, hw, h⟩
  -- the occupied sites drawn in the plane
  obtain ⟨f, hf⟩ := exists_label_potential (R := Walk L occ) (fun h => h.reverse hocc) (fun h h' => h.append h') (fun {x v} h => by
    by_contra hv
    exact hn ⟨x, v, hv, h⟩)
  -- the potential on empty sites
  obtain ⟨g, hg⟩ := exists_label_potential (G := Int) (R := fun x y k => ∃ p q, siteAt L p = x ∧ siteAt L q = y ∧ EmptyConn L occ p q ∧
      k = a * (q.1 - p.1) + b * (q.2 - p.2))
    (by
      rintro x y k ⟨p, q, h1, h2, h3, rfl⟩
      exact ⟨q, p, h2, h1, h3.symm, by ring⟩)
    (by
      rintro x y z k k' ⟨p, q, h1, h2, h3, rfl⟩ ⟨p', q', h1', h2', h3', rfl⟩
      have := h3'.shift hL (o := q - p') (by rw [show p' + (q - p') = q by abel, h1', h2])
      rw [show p' + (q - p') = q by abel] at this
      refine ⟨p, q' + (q - p'), h1, ?_, h3.trans this, ?_⟩
      · have := siteAt_add_congr hL (h2.trans h1'.symm) (q' - p')
        rw [show p' + (q' - p') = q' by abel, h2'] at this
        rw [← this]; congr 1; abel
      · simp only [Prod.fst_add, Prod.snd_add, Prod.fst_sub, Prod.snd_sub]; ring)
    (by
      rintro x k ⟨p, q, h1, h2, h3, rfl⟩
      have := hcon (q - p) ⟨p, by rw [show p + (q - p) = q by abel, h1, h2], by rwa [show p + (q - p) = q by abel]⟩
      simpa using this)
  have near : ∀ p q, ¬ occ (siteAt L p) → ¬ occ (siteAt L q) → Near p q → g (siteAt L q) - g (siteAt L p) = a * (q.1 - p.1) + b * (q.2 - p.2) :=
    fun p q h1 h2 h3 => hg _ _ _ ⟨p, q, rfl, rfl, Relation.ReflTransGen.single ⟨h1, h2, h3⟩, rfl⟩
  -- the potential on plaquettes
  let C : Int × Int → Prop := fun o => (o.1 = 0 ∨ o.1 = 1) ∧ (o.2 = 0 ∨ o.2 = 1)
  let base : Nat → Int × Int := fun s => ((s / L : Nat), (s % L : Nat))
  let G : Nat → Int := fun s => if h : ∃ o, C o ∧ ¬ occ (siteAt L (base s + o)) then
    g (siteAt L (base s + h.choose)) - (a * h.choose.1 + b * h.choose.2) else 0
  have hG : ∀ p o, C o → ¬ occ (siteAt L (p + o)) → G (siteAt L p) = g (siteAt L (p + o)) - (a * o.1 + b * o.2) := by
    intro p o ho hne
    have hb : siteAt L (base (siteAt L p)) = siteAt L p := siteAt_rc (siteAt_lt hL p)
    have hne' : ¬ occ (siteAt L (base (siteAt L p) + o)) := by rwa [siteAt_add_congr hL hb]
    have hex : ∃ o, C o ∧ ¬ occ (siteAt L (base (siteAt L p) + o)) := ⟨o, ho, hne'⟩
    show (if h : ∃ o, C o ∧ ¬ occ (siteAt L (base (siteAt L p) + o)) then
      g (siteAt L (base (siteAt L p) + h.choose)) - (a * h.choose.1 + b * h.choose.2) else 0) = _
    rw [dif_pos hex]
    obtain ⟨c1, c2⟩ := hex.choose_spec
    have := near _ _ hne' c2 (by
      simp only [Near, Prod.fst_add, Prod.snd_add]
      obtain ⟨h1, h2⟩ := ho
      obtain ⟨h3, h4⟩ := c1
      omega)
    simp only [Prod.fst_add, Prod.snd_add] at this
    rw [← siteAt_add_congr hL hb o]
    linear_combination this
  have Gr : ∀ s < L * L, ¬ (occ s ∧ occ (nbr L s .right)) → G s - G (nbr L s .up) = a := by
    intro s hs h
    have hb : siteAt L (base s) = s := siteAt_rc hs
    have key : ∀ o : Int × Int, o.1 = 0 → (o.2 = 0 ∨ o.2 = 1) → ¬ occ (siteAt L (base s + o)) → G s - G (nbr L s .up) = a := by
      intro o h1 h2 hne
      have r1 := hG (base s) o ⟨.inl h1, h2⟩ hne
      have r2 := hG (base s + (-1, 0)) (o + (1, 0)) ⟨.inr (by simp [h1]), by simpa using h2⟩ (by
        rwa [show base s + (-1, 0) + (o + (1, 0)) = base s + o + ((-1, 0) + (1, 0)) by abel, show ((-1, 0) + (1, 0) : Int × Int) = 0 by rfl, add_zero])
      rw [show base s + (-1, 0) + (o + (1, 0)) = base s + o + ((-1, 0) + (1, 0)) by abel, show ((-1, 0) + (1, 0) : Int × Int) = 0 by rfl, add_zero] at r2
      rw [siteAt_up hL, hb] at r2
      rw [hb] at r1
      rw [r1, r2]
      simp only [Prod.fst_add, Prod.snd_add]; ring
    by_cases h1 : occ s
    · refine key (0, 1) rfl (.inr rfl) ?_
      rw [siteAt_right hL, hb]
      exact fun h2 => h ⟨h1, h2⟩
    · refine key 0 rfl (.inl rfl) ?_
      rwa [add_zero, hb]
  have Gd : ∀ s < L * L, ¬ (occ s ∧ occ (nbr L s .down)) → G s - G (nbr L s .left) = b := by
    intro s hs h
    have hb : siteAt L (base s) = s := siteAt_rc hs
    have key : ∀ o : Int × Int, o.2 = 0 → (o.1 = 0 ∨ o.1 = 1) → ¬ occ (siteAt L (base s + o)) → G s - G (nbr L s .left) = b := by
      intro o h1 h2 hne
      have r1 := hG (base s) o ⟨h2, .inl h1⟩ hne
      have r2 := hG (base s + (0, -1)) (o + (0, 1)) ⟨by simpa using h2, .inr (by simp [h1])⟩ (by
        rwa [show base s + (0, -1) + (o + (0, 1)) = base s + o + ((0, -1) + (0, 1)) by abel, show ((0, -1) + (0, 1) : Int × Int) = 0 by rfl, add_zero])
      rw [show base s + (0, -1) + (o + (0, 1)) = base s + o + ((0, -1) + (0, 1)) by abel, show ((0, -1) + (0, 1) : Int × Int) = 0 by rfl, add_zero] at r2
      rw [siteAt_left hL, hb] at r2
      rw [hb] at r1
      rw [r1, r2]
      simp only [Prod.fst_add, Prod.snd_add]; ring
    by_cases h1 : occ s
    · refine key (1, 0) rfl (.inr rfl) ?_
      rw [siteAt_down hL, hb]
      exact fun h2 => h ⟨h1, h2⟩
    · refine key 0 rfl (.inl rfl) ?_
      rwa [add_zero, hb]
  have s1 := sum_by_parts (f := fun s => (f s).1) (g := G) (A := 0) (B := 1) hL
    (fun s _ h1 h2 => by have := hf _ _ _ (Walk.step .right h1 h2); simpa [Dir.vec] using congrArg Prod.fst this)
    (fun s _ h1 h2 => by have := hf _ _ _ (Walk.step .down h1 h2); simpa [Dir.vec] using congrArg Prod.fst this) Gr Gd
  have s2 := sum_by_parts (f := fun s => (f s).2) (g := G) (A := 1) (B := 0) hL
    (fun s _ h1 h2 => by have := hf _ _ _ (Walk.step .right h1 h2); simpa [Dir.vec] using congrArg Prod.snd this)
    (fun s _ h1 h2 => by have := hf _ _ _ (Walk.step .down h1 h2); simpa [Dir.vec] using congrArg Prod.snd this) Gr Gd
  rcases hab with h | h
  · exact h (by linarith)
  · exact h (by linarith)

/-- A closed walk of occupied sites and a closed path of empty sites, with diagonal steps, wind in parallel directions. -/
theorem Walk.parallel_empty (hocc : ∀ s, occ s → s < L * L) {s : Nat} {v w : Int × Int} (h : Walk L occ s s v) (hw : EmptyLoop L occ w) :
    v.1 * w.2 = v.2 * w.1 := by
  have hL : 0 < L := pos_of_lt_sq (hocc _ h.occ_left)
  obtain ⟨F, H, V, D, E, hD, hE, f1, fr, fd⟩ := h.crossing hocc
  have z := fun p (hp : ¬ occ (siteAt L p)) => f1 _ (siteAt_lt hL p) hp
  have F1 : ∀ p, F (siteAt L (p + (0, 1))) - F (siteAt L p) = L * V (siteAt L (p + (-1, 0))) - D := by
    intro p
    rw [siteAt_right hL, siteAt_up hL]
    exact fr _ (siteAt_lt hL p)
  have F2 : ∀ p, F (siteAt L (p + (1, 0))) - F (siteAt L p) = -(L * H (siteAt L (p + (0, -1)))) - E := by
    intro p
    rw [siteAt_down hL, siteAt_left hL]
    exact fd _ (siteAt_lt hL p)
  simp only [← siteAt_left hL, ← siteAt_up hL] at z
  have half : ∀ (p : Int × Int) (o : Int × Int), ¬ occ (siteAt L p) → ¬ occ (siteAt L (p + o)) → (-1 ≤ o.1 ∧ o.1 ≤ 1) → (o.2 = 0 ∧ 0 ≤ o.1 ∨ o.2 = 1) →
      F (siteAt L (p + o)) - F (siteAt L p) = -D * o.2 - E * o.1 := by
    rintro p ⟨a, b⟩ hp hq h1 h2
    obtain ⟨z1, z2, z3, z4⟩ := z p hp
    obtain ⟨y1, y2, y3, y4⟩ := z _ hq
    simp only at h1 h2
    have e1 := F1 p
    have e2 := F2 p
    rw [z4] at e1
    rw [z2] at e2
    obtain ⟨rfl, rfl⟩ | ⟨rfl, rfl⟩ | ⟨rfl, rfl⟩ | ⟨rfl, rfl⟩ | ⟨rfl, rfl⟩ : (a = 0 ∧ b = 0) ∨ (a = 1 ∧ b = 0) ∨ (a = 0 ∧ b = 1) ∨ (a = 1 ∧ b = 1) ∨ (a = -1 ∧ b = 1) := by
      omega
    · rw [show ((0, 0) : Int × Int) = 0 from rfl, add_zero]; simp
    · linear_combination e2
    · linear_combination e1
    · have e3 := F2 (p + (0, 1))
      rw [add_assoc, add_assoc, show ((0, 1) + (1, 0) : Int × Int) = (1, 1) from rfl, show ((0, 1) + (0, -1) : Int × Int) = 0 from rfl, add_zero, z1] at e3
      linear_combination e1 + e3
    · have e3 := F2 (p + (-1, 1))
      rw [y2, add_assoc, show ((-1, 1) + (1, 0) : Int × Int) = (0, 1) from rfl] at e3
      linear_combination e1 - e3
  have step : ∀ p q : Int × Int, ¬ occ (siteAt L p) → ¬ occ (siteAt L q) → Near p q →
      F (siteAt L q) - F (siteAt L p) = -D * (q.2 - p.2) - E * (q.1 - p.1) := by
    intro p q hp hq hn
    simp only [Near] at hn
    by_cases h1 : (q.2 - p.2 = 0 ∧ 0 ≤ q.1 - p.1) ∨ q.2 - p.2 = 1
    · have := half p (q - p) hp (by rwa [add_sub_cancel]) hn.1 h1
      rwa [add_sub_cancel] at this
    · have := half q (p - q) hq (by rwa [add_sub_cancel]) (by simp only [Prod.fst_sub]; omega) (by simp only [Prod.fst_sub, Prod.snd_sub]; omega)
      rw [add_sub_cancel] at this
      simp only [Prod.fst_sub, Prod.snd_sub] at this
      linear_combination -this
  have along : ∀ p q : Int × Int, EmptyConn L occ p q → F (siteAt L q) - F (siteAt L p) = -D * (q.2 - p.2) - E * (q.1 - p.1) := by
    intro p q hpq
    induction hpq with
    | refl => simp
    | @tail a b _ h ih =>
      have := step a b h.1 h.2.1 h.2.2
      linear_combination ih + this
  obtain ⟨p, h1, h2⟩ := hw
  have := along _ _ h2
  rw [h1, sub_self] at this
  simp only [Prod.fst_add, Prod.snd_add, add_sub_cancel_left] at this
  rw [← hD, show v.2 = -(L * E) by linarith]
  linear_combination (L : Int) * this

/-- Either the occupied sites wrap around, or the empty sites do so in two independent directions when diagonal steps are allowed; never both. -/
theorem wraps_iff_no_crossing (hL : 0 < L) (hocc : ∀ s, occ s → s < L * L) :
    Wraps L occ ↔ ¬ ∃ w w', EmptyLoop L occ w ∧ EmptyLoop L occ w' ∧ w.1 * w'.2 ≠ w.2 * w'.1 := by
  constructor
  · rintro ⟨s, v, hv, h⟩ ⟨w, w', h1, h2, h3⟩
    have e1 := h.parallel_empty hocc h1
    have e2 := h.parallel_empty hocc h2
    apply h3
    by_cases hv1 : v.1 = 0
    · have hv2 : v.2 ≠ 0 := fun h => hv (Prod.ext hv1 h)
      rw [hv1, zero_mul, eq_comm, mul_eq_zero] at e1 e2
      rw [e1.resolve_left hv2, e2.resolve_left hv2]; ring
    · apply mul_left_cancel₀ hv1
      linear_combination w.1 * e2 - w'.1 * e1
  · intro h
    by_contra hn
    obtain ⟨w, h1, h2⟩ := emptyLoop_of_not_wraps hL hocc hn (a := 1) (b := 0) (.inl one_ne_zero)
    obtain ⟨w', h3, h4⟩ := emptyLoop_of_not_wraps hL hocc hn (a := w.2) (b := -w.1) (.inr (by simpa using h2))
    exact h ⟨w, w', h1, h3, fun e => h4 (by linear_combination -e)⟩

end SqPerc
