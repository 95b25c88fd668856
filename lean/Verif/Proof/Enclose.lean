import Verif.Proof.Boundary
import Verif.Props.Parallel
/-
If no closed path of empty sites goes around the lattice, all wrapping sites are connected, and every other occupied site is surrounded by a
path of empty sites.
-/
namespace SqPerc

variable {L : Nat} {occ : Nat → Prop}

/-! ### Connected components of a relation -/

theorem class_symm {P : Type} {R : P → P → Prop} (symm : ∀ x y, R x y → R y x) {x y : P} (h : Relation.ReflTransGen R x y) :
    Relation.ReflTransGen R y x := by
  induction h with
  | refl => exact .refl
  | tail _ h ih => exact Relation.ReflTransGen.head (symm _ _ h) ih

theorem class_conn {P : Type} {R : P → P → Prop} (symm : ∀ x y, R x y → R y x) {p x y : P} (hx : Relation.ReflTransGen R p x)
    (hy : Relation.ReflTransGen R p y) :
    Relation.ReflTransGen (fun a b => Relation.ReflTransGen R p a ∧ Relation.ReflTransGen R p b ∧ R a b) x y := by
  have h := (class_symm symm hx).trans hy
  clear hy
  induction h with
  | refl => exact .refl
  | tail h1 h2 ih => exact ih.tail ⟨hx.trans h1, (hx.trans h1).tail h2, h2⟩

/-- Neighbours outside a set. -/
def Off (C : Int × Int → Prop) (x y : Int × Int) : Prop := ¬ C x ∧ ¬ C y ∧ ∃ d : Dir, y = x + d.vec

theorem dir_back (x : Int × Int) (d : Dir) : x + d.vec + d.opp.vec = x := by
  have : d.vec + d.opp.vec = 0 := by cases d <;> rfl
  rw [add_assoc, this, add_zero]

theorem adj_symm {x y : Int × Int} (h : ∃ d : Dir, y = x + d.vec) : ∃ d : Dir, x = y + d.vec := by
  obtain ⟨d, rfl⟩ := h
  exact ⟨d.opp, (dir_back x d).symm⟩

theorem Off.symm {C : Int × Int → Prop} (x y : Int × Int) (h : Off C x y) : Off C y x := ⟨h.2.1, h.1, adj_symm h.2.2⟩

theorem planeStep_symm (x y : Int × Int) (h : occ (siteAt L x) ∧ occ (siteAt L y) ∧ ∃ d : Dir, y = x + d.vec) :
    occ (siteAt L y) ∧ occ (siteAt L x) ∧ ∃ d : Dir, x = y + d.vec := ⟨h.2.1, h.1, adj_symm h.2.2⟩

/-- The boundary of a cluster of the plane towards one component of its complement. -/
theorem cluster_boundary {p q : Int × Int} (hp : occ (siteAt L p)) (hq : ¬ PlaneConn L occ p q) {x y : Int × Int} {d e : Dir}
    (h1 : PlaneConn L occ p x) (h2 : Relation.ReflTransGen (Off (PlaneConn L occ p)) q (x + d.vec)) (h3 : PlaneConn L occ p y)
    (h4 : Relation.ReflTransGen (Off (PlaneConn L occ p)) q (y + e.vec)) : EmptyConn L occ (x + d.vec) (y + e.vec) := by
  have occC : ∀ x, PlaneConn L occ p x → occ (siteAt L x) := by
    intro x hx
    rcases Relation.ReflTransGen.cases_tail hx with h | ⟨_, _, h⟩
    · rw [h]; exact hp
    · exact h.2.1
  have notC : ∀ x, Relation.ReflTransGen (Off (PlaneConn L occ p)) q x → ¬ PlaneConn L occ p x := by
    intro x hx
    rcases Relation.ReflTransGen.cases_tail hx with h | ⟨_, _, h⟩
    · rw [h]; exact hq
    · exact h.2.1
  refine boundary_joined (em := fun x => ¬ occ (siteAt L x)) (C := PlaneConn L occ p)
    (D := Relation.ReflTransGen (Off (PlaneConn L occ p)) q) ?_ ?_ ?_ ?_ ?_ h1 h2 h3 h4
  · intro a b ha hb
    exact Relation.ReflTransGen.mono (fun x y h => ⟨h.1, h.2.1, h.2.2.2.2⟩) _ _ (class_conn planeStep_symm ha hb)
  · intro a b ha hb
    exact Relation.ReflTransGen.mono (fun x y h => ⟨h.1, h.2.1, h.2.2.2.2⟩) _ _ (class_conn Off.symm ha hb)
  · intro a ha hb
    exact notC a hb ha
  · intro a d ha hb
    by_contra hc
    exact hb (ha.tail ⟨notC a ha, hc, d, rfl⟩)
  · intro a d ha hb hocc
    exact notC _ hb (ha.tail ⟨occC a ha, hocc, d, rfl⟩)

/-! ### Two wrapping clusters -/

/-- No closed path of empty sites goes around the lattice. -/
def NoLoop (L : Nat) (occ : Nat → Prop) : Prop := ∀ w, w ≠ 0 → ¬ EmptyLoop L occ w

theorem Walk.ztimes (hocc : ∀ s, occ s → s < L * L) {s : Nat} {v : Int × Int} (h : Walk L occ s s v) (a : Int) : Walk L occ s s (a • v) := by
  obtain ⟨n, rfl | rfl⟩ := Int.eq_nat_or_neg a
  · rw [natCast_zsmul]; exact h.times n
  · rw [neg_smul, natCast_zsmul]; exact (h.times n).reverse hocc

theorem parallel_multiple {v w : Int × Int} (hv : v ≠ 0) (hw : w ≠ 0) (h : v.1 * w.2 = v.2 * w.1) : ∃ a b : Int, a • v = b • w ∧ a • v ≠ 0 := by
  obtain ⟨v1, v2⟩ := v
  obtain ⟨w1, w2⟩ := w
  simp only [ne_eq, Prod.mk_eq_zero, not_and] at hv hw
  simp only at h
  by_cases h1 : v1 = 0
  · have h2 := hv h1
    have h3 : w1 = 0 := by
      rw [h1, zero_mul] at h
      rcases mul_eq_zero.1 h.symm with h | h
      · exact absurd h h2
      · exact h
    have h4 := hw h3
    refine ⟨w2, v2, ?_, ?_⟩
    · ext
      · simp [h1, h3]
      · simp [mul_comm]
    · simp only [Prod.smul_mk, smul_eq_mul, ne_eq, Prod.mk_eq_zero, not_and]
      exact fun _ => mul_ne_zero h4 h2
  · have h3 : w1 ≠ 0 := by
      intro h3
      rw [h3, mul_zero] at h
      rcases mul_eq_zero.1 h with h | h
      · exact h1 h
      · exact hw h3 h
    refine ⟨w1, v1, ?_, ?_⟩
    · ext
      · simp [mul_comm]
      · simp only [Prod.smul_mk, smul_eq_mul]
        linarith
    · simp only [Prod.smul_mk, smul_eq_mul, ne_eq, Prod.mk_eq_zero, not_and]
      exact fun h => absurd h (mul_ne_zero h3 h1)

theorem PlaneConn.shift {p q o : Int × Int} (per : ∀ x, siteAt L (x + o) = siteAt L x) (h : PlaneConn L occ p q) :
    PlaneConn L occ (p + o) (q + o) := by
  induction h with
  | refl => exact .refl
  | @tail a b _ h ih =>
    obtain ⟨h1, h2, d, rfl⟩ := h
    exact ih.tail ⟨by rwa [per], by rwa [per], d, by abel⟩

theorem PlaneConn.symm {p q : Int × Int} (h : PlaneConn L occ p q) : PlaneConn L occ q p := class_symm planeStep_symm h

/-- A set that contains a point and with each point its neighbours is everything. -/
theorem plane_closed {D : Int × Int → Prop} {q : Int × Int} (hq : D q) (h : ∀ x (d : Dir), D x → D (x + d.vec)) (p : Int × Int) : D p := by
  have h1 : ∀ i : Int, D (q.1 + i, q.2) := by
    intro i
    induction i using Int.induction_on with
    | zero => simpa using hq
    | succ i ih => have := h _ .down ih; simpa [Dir.vec, add_assoc] using this
    | pred i ih => have := h _ .up ih; simpa [Dir.vec, add_assoc, sub_eq_add_neg] using this
  have h2 : ∀ i j : Int, D (q.1 + i, q.2 + j) := by
    intro i j
    induction j using Int.induction_on with
    | zero => simpa using h1 i
    | succ j ih => have := h _ .right ih; simpa [Dir.vec, add_assoc] using this
    | pred j ih => have := h _ .left ih; simpa [Dir.vec, add_assoc, sub_eq_add_neg] using this
  have := h2 (p.1 - q.1) (p.2 - q.2)
  simpa using this

/-- Without closed paths of empty sites around the lattice there is only one wrapping cluster. -/
theorem NoLoop.unique (hno : NoLoop L occ) (hocc : ∀ s, occ s → s < L * L) {s t : Nat} (hs : WrapsAt L occ s) (ht : WrapsAt L occ t) :
    SiteConn L occ s t := by
  by_contra hn
  obtain ⟨v, hv, hwv⟩ := hs
  obtain ⟨w, hw, hww⟩ := ht
  obtain ⟨a, b, hab, hne⟩ := parallel_multiple hv hw (apart_parallel hocc hn hwv hww)
  have hos := hwv.occ_left
  have hot := hww.occ_left
  have hL : 0 < L := pos_of_lt_sq (hocc _ hos)
  have hWs := hwv.ztimes hocc a
  have hWt := hww.ztimes hocc b
  rw [← hab] at hWt
  generalize a • v = o at *
  obtain ⟨p, rfl⟩ : ∃ p, siteAt L p = s := ⟨_, siteAt_rc (hocc s hos)⟩
  obtain ⟨q, rfl⟩ : ∃ q, siteAt L q = t := ⟨_, siteAt_rc (hocc t hot)⟩
  have ho : siteAt L (p + o) = siteAt L p := hWs.lift hL
  have per : ∀ x, siteAt L (x + o) = siteAt L x := by
    intro x
    have := siteAt_add_congr hL ho (x - p)
    rwa [show p + o + (x - p) = x + o by abel, show p + (x - p) = x by abel] at this
  have per' : ∀ x, siteAt L (x + -o) = siteAt L x := by
    intro x
    have := per (x + -o)
    rw [neg_add_cancel_right] at this
    exact this.symm
  have hpo : PlaneConn L occ p (p + o) := (planeConn_iff hL hos).2 (by rw [add_sub_cancel_left, ho]; exact hWs)
  have hqo : PlaneConn L occ q (q + o) := (planeConn_iff hL hot).2 (by rw [add_sub_cancel_left, hWt.lift hL]; exact hWt)
  have apart : ∀ x, PlaneConn L occ q x → ¬ PlaneConn L occ p x := by
    intro x hx hp
    have h1 := ((planeConn_iff hL hos).1 hp).siteConn
    have h2 := ((planeConn_iff hL hot).1 hx).siteConn
    exact hn (h1.trans (h2.symm_occ hocc hot))
  have Cs : ∀ x, PlaneConn L occ p x → PlaneConn L occ p (x + o) := fun x hx => hpo.trans (hx.shift per)
  have Cs' : ∀ x, PlaneConn L occ p (x + o) → PlaneConn L occ p x := by
    intro x hx
    have := PlaneConn.shift per' (hpo.symm.trans hx)
    rwa [add_neg_cancel_right, add_neg_cancel_right] at this
  have hqD : Relation.ReflTransGen (Off (PlaneConn L occ p)) q (q + o) := by
    have key : ∀ y, PlaneConn L occ q y → Relation.ReflTransGen (Off (PlaneConn L occ p)) q y := by
      intro y hy
      induction hy with
      | refl => exact .refl
      | tail h1 h2 ih => exact ih.tail ⟨apart _ h1, apart _ (h1.tail h2), h2.2.2⟩
    exact key _ hqo
  -- a bond from the component of the complement into the cluster
  obtain ⟨x, d, hx, hxd⟩ : ∃ x, ∃ d : Dir, Relation.ReflTransGen (Off (PlaneConn L occ p)) q x ∧
      ¬ Relation.ReflTransGen (Off (PlaneConn L occ p)) q (x + d.vec) := by
    by_contra hcon
    push Not at hcon
    have := plane_closed (D := Relation.ReflTransGen (Off (PlaneConn L occ p)) q) .refl hcon p
    rcases Relation.ReflTransGen.cases_tail this with h | ⟨_, _, h⟩
    · exact apart q .refl (h ▸ .refl)
    · exact h.2.1 .refl
  have hxC : PlaneConn L occ p (x + d.vec) := by
    by_contra hc
    have hx' : ¬ PlaneConn L occ p x := by
      rcases Relation.ReflTransGen.cases_tail hx with h | ⟨_, _, h⟩
      · rw [h]; exact apart q .refl
      · exact h.2.1
    exact hxd (hx.tail ⟨hx', hc, d, rfl⟩)
  have hxo : Relation.ReflTransGen (Off (PlaneConn L occ p)) q (x + o) := by
    refine hqD.trans ?_
    clear hxd hxC
    induction hx with
    | refl => exact .refl
    | @tail y z _ h ih =>
      obtain ⟨h1, h2, d, rfl⟩ := h
      exact ih.tail ⟨fun h => h1 (Cs' _ h), fun h => h2 (Cs' _ h), d, by abel⟩
  have hE := cluster_boundary (x := x + d.vec) (y := x + o + d.vec) (d := d.opp) (e := d.opp) hos (apart q .refl) hxC
    (by rw [dir_back]; exact hx) (by rw [add_right_comm]; exact Cs _ hxC) (by rw [dir_back]; exact hxo)
  rw [dir_back, dir_back] at hE
  exact hno o hne ⟨x, per x, hE⟩

/-! ### Finite clusters -/

theorem off_right {C : Int × Int → Prop} {r c : Int} (n : Nat) (h : ∀ i : Nat, i ≤ n → ¬ C (r, c + i)) :
    Relation.ReflTransGen (Off C) (r, c) (r, c + n) := by
  induction n with
  | zero => simp only [Nat.cast_zero, add_zero]; exact .refl
  | succ n ih =>
    refine (ih fun i hi => h i (by omega)).tail ⟨h n (by omega), h (n + 1) le_rfl, .right, ?_⟩
    simp [Dir.vec, add_assoc]

theorem off_down {C : Int × Int → Prop} {r c : Int} (n : Nat) (h : ∀ i : Nat, i ≤ n → ¬ C (r + i, c)) :
    Relation.ReflTransGen (Off C) (r, c) (r + n, c) := by
  induction n with
  | zero => simp only [Nat.cast_zero, add_zero]; exact .refl
  | succ n ih =>
    refine (ih fun i hi => h i (by omega)).tail ⟨h n (by omega), h (n + 1) le_rfl, .down, ?_⟩
    simp [Dir.vec, add_assoc]

theorem last_index {P : Nat → Prop} {R : Nat} (h0 : P 0) (hR : ∀ i, P i → i ≤ R) : ∃ j, P j ∧ ∀ i, j < i → ¬ P i := by
  classical
  refine ⟨Nat.findGreatest P R, Nat.findGreatest_spec (Nat.zero_le _) h0, fun i hi h => ?_⟩
  have := Nat.le_findGreatest (hR i h) h
  omega

/-- An occupied site that does not wrap is surrounded: a path of empty sites joins a point to its right to a point to its left. -/
theorem enclosed (hL : 0 < L) (hocc : ∀ s, occ s → s < L * L) {p : Int × Int} (hp : occ (siteAt L p)) (hw : ¬ WrapsAt L occ (siteAt L p)) :
    ∃ j j' : Nat, EmptyConn L occ (p + (0, (j : Int) + 1)) (p + (0, -(j' : Int) - 1)) ∧ ¬ occ (siteAt L (p + (0, (j : Int) + 1))) := by
  rw [wrapsAt_iff_infinite hL hocc, Set.not_infinite] at hw
  obtain ⟨r, c⟩ := p
  set C := PlaneConn L occ (r, c) with hC
  have hCm : ∀ x, C x → x ∈ planeCluster L occ (r, c) := fun x hx => ⟨hp, hx⟩
  -- a box that contains the cluster
  obtain ⟨R, hR⟩ : ∃ R : Nat, ∀ x, C x → (-(R : Int) ≤ x.1 - r ∧ x.1 - r ≤ R) ∧ -(R : Int) ≤ x.2 - c ∧ x.2 - c ≤ R := by
    refine ⟨∑ x ∈ hw.toFinset, ((x.1 - r).natAbs + (x.2 - c).natAbs), fun x hx => ?_⟩
    have := Finset.single_le_sum (f := fun x : Int × Int => (x.1 - r).natAbs + (x.2 - c).natAbs) (fun _ _ => Nat.zero_le _)
      (hw.mem_toFinset.2 (hCm x hx))
    omega
  obtain ⟨j, hj, hjmax⟩ := last_index (P := fun j : Nat => C (r, c + j)) (R := R) (by simp only [Nat.cast_zero, add_zero]; exact .refl)
    (fun i hi => by have := hR _ hi; dsimp only at this; omega)
  obtain ⟨j', hj', hjmax'⟩ := last_index (P := fun j : Nat => C (r, c - j)) (R := R) (by simp only [Nat.cast_zero, sub_zero]; exact .refl)
    (fun i hi => by have := hR _ hi; dsimp only at this; omega)
  have hjR : j ≤ R := by have := hR _ hj; dsimp only at this; omega
  have hjR' : j' ≤ R := by have := hR _ hj'; dsimp only at this; omega
  have far : ∀ x : Int × Int, (x.1 - r > R ∨ x.1 - r < -R ∨ x.2 - c > R ∨ x.2 - c < -R) → ¬ C x := by
    intro x hx h
    have := hR x h
    omega
  -- around the box
  have s1 : Relation.ReflTransGen (Off C) (r, c + (j + 1)) (r, c + (R + 1)) := by
    have := off_right (C := C) (r := r) (c := c + (j + 1)) (R - j) (fun i _ => by
      have := hjmax (j + 1 + i) (by omega)
      push_cast at this
      rwa [← add_assoc] at this)
    rwa [show c + ((j : Int) + 1) + ((R - j : Nat) : Int) = c + (R + 1) by omega] at this
  have s2 : Relation.ReflTransGen (Off C) (r, c + (R + 1)) (r + (R + 1 : Nat), c + (R + 1)) :=
    off_down (R + 1) fun i _ => far _ (by dsimp only; omega)
  have s3 : Relation.ReflTransGen (Off C) (r + (R + 1 : Nat), c + (R + 1)) (r + (R + 1 : Nat), c - (R + 1)) := by
    have := off_right (C := C) (r := r + (R + 1 : Nat)) (c := c - (R + 1)) (2 * (R + 1)) fun i _ => far _ (by dsimp only; omega)
    rw [show c - ((R : Int) + 1) + ((2 * (R + 1) : Nat) : Int) = c + (R + 1) by push_cast; ring] at this
    exact class_symm Off.symm this
  have s4 : Relation.ReflTransGen (Off C) (r + (R + 1 : Nat), c - (R + 1)) (r, c - (R + 1)) :=
    class_symm Off.symm (off_down (R + 1) fun i _ => far _ (by dsimp only; omega))
  have s5 : Relation.ReflTransGen (Off C) (r, c - (R + 1)) (r, c - (j' + 1)) := by
    have := off_right (C := C) (r := r) (c := c - (R + 1)) (R - j') (fun i hi => by
      have := hjmax' (R + 1 - i) (by omega)
      rwa [show c - ((R + 1 - i : Nat) : Int) = c - (R + 1) + i by omega] at this)
    rwa [show c - ((R : Int) + 1) + ((R - j' : Nat) : Int) = c - (j' + 1) by omega] at this
  have hq : ¬ C (r, c + (j + 1)) := by
    have := hjmax (j + 1) (by omega)
    push_cast at this
    exact this
  have hE := cluster_boundary (x := (r, c + j)) (y := (r, c - j')) (d := .right) (e := .left) (q := (r, c + (j + 1))) hp hq hj
    (by
      have : ((r, c + (j : Int)) + Dir.right.vec : Int × Int) = (r, c + (j + 1)) := by simp [Dir.vec, add_assoc]
      rw [this]) hj'
    (by
      have : ((r, c - (j' : Int)) + Dir.left.vec : Int × Int) = (r, c - (j' + 1)) := by
        ext
        · simp [Dir.vec]
        · simp [Dir.vec]; ring
      rw [this]
      exact (((s1.trans s2).trans s3).trans s4).trans s5)
  have e1 : ((r, c + (j : Int)) + Dir.right.vec : Int × Int) = (r, c) + (0, (j : Int) + 1) := by simp [Dir.vec, add_assoc]
  have e2 : ((r, c - (j' : Int)) + Dir.left.vec : Int × Int) = (r, c) + (0, -(j' : Int) - 1) := by
    ext
    · simp [Dir.vec]
    · simp [Dir.vec]; ring
  rw [e1, e2] at hE
  refine ⟨j, j', hE, fun ho => ?_⟩
  refine hq (Relation.ReflTransGen.tail hj ⟨?_, ?_, .right, by simp [Dir.vec, add_assoc]⟩)
  · rcases Relation.ReflTransGen.cases_tail hj with h | ⟨_, _, h⟩
    · rw [h]; exact hp
    · exact h.2.1
  · have : ((r, c) + (0, (j : Int) + 1) : Int × Int) = (r, c + (j + 1)) := by simp
    rwa [this] at ho

end SqPerc
