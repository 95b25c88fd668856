import Verif.Proof.Peierls
/-
The boundary between a connected set of points of the plane and a component of its complement is connected, if diagonal steps are allowed.
The proof: give the bonds that lead into one part of the boundary the value 1; the values add up to 0 around every square of four points, so
they are the differences of a function on the plane, which is constant on both sets.
-/
namespace SqPerc

/-! ### Functions with given differences -/

theorem exists_line_potential (g : Int → Int) : ∃ F : Int → Int, ∀ n, F (n + 1) - F n = g n := by
  refine ⟨fun n => ∑ i ∈ Finset.range n.toNat, g i - ∑ i ∈ Finset.range (-n).toNat, g (-(i : Int) - 1), fun n => ?_⟩
  dsimp only
  rcases le_or_gt 0 n with h | h
  · obtain ⟨m, rfl⟩ := Int.eq_ofNat_of_zero_le h
    have e1 : ((m : Int) + 1).toNat = m + 1 := by omega
    have e2 : (-((m : Int) + 1)).toNat = 0 := by omega
    have e3 : (-(m : Int)).toNat = 0 := by omega
    rw [e1, e2, e3, Int.toNat_natCast, Finset.sum_range_succ]
    simp
  · obtain ⟨m, rfl⟩ : ∃ m : Nat, n = -(m : Int) - 1 := ⟨(-n - 1).toNat, by omega⟩
    have e1 : (-(m : Int) - 1 + 1).toNat = 0 := by omega
    have e2 : (-(-(m : Int) - 1 + 1)).toNat = m := by omega
    have e3 : (-(m : Int) - 1).toNat = 0 := by omega
    have e4 : (-(-(m : Int) - 1)).toNat = m + 1 := by omega
    rw [e1, e2, e3, e4, Finset.sum_range_succ]
    simp

theorem exists_plane_potential {h v : Int → Int → Int} (hc : ∀ r c, h r c + v r (c + 1) = v r c + h (r + 1) c) :
    ∃ f : Int → Int → Int, (∀ r c, f r (c + 1) - f r c = h r c) ∧ ∀ r c, f (r + 1) c - f r c = v r c := by
  obtain ⟨H, hH⟩ := exists_line_potential fun c => h 0 c
  choose V hV using fun c => exists_line_potential fun r => v r c
  have key : ∀ r c, (V (c + 1) r - V (c + 1) 0) - (V c r - V c 0) = h r c - h 0 c := by
    intro r c
    induction r using Int.induction_on with
    | zero => ring
    | succ i ih =>
      have h1 := hV (c + 1) i
      have h2 := hV c i
      have h3 := hc i c
      omega
    | pred i ih =>
      have h1 := hV (c + 1) (-(i : Int) - 1)
      have h2 := hV c (-(i : Int) - 1)
      have h3 := hc (-(i : Int) - 1) c
      rw [sub_add_cancel] at h1 h2 h3
      omega
  refine ⟨fun r c => V c r - V c 0 + H c, fun r c => ?_, fun r c => ?_⟩
  · have := key r c
    have := hH c
    dsimp only
    omega
  · have := hV c r
    dsimp only
    omega

/-! ### One square -/

/-- The value of a bond. -/
def bval (cx dx kx cy dy ky : Bool) : Int := (if cx && dy && ky then 1 else 0) - if dx && cy && kx then 1 else 0

/-- The values around a square of four points `a b / e f` under the conditions below. -/
theorem square_closed_bool : ∀ ca da cb db ce de cf df ka kb ke kf : Bool,
    (!(ca && da) && !(cb && db) && !(ce && de) && !(cf && df) &&
      (!da || db || cb) && (!db || da || ca) && (!da || de || ce) && (!de || da || ca) &&
      (!db || df || cf) && (!df || db || cb) && (!de || df || cf) && (!df || de || ce) &&
      (!(da && (cb || ce)) || !(db && (ca || cf)) || (ka == kb)) && (!(da && (cb || ce)) || !(de && (ca || cf)) || (ka == ke)) &&
      (!(da && (cb || ce)) || !(df && (cb || ce)) || (ka == kf)) && (!(db && (ca || cf)) || !(de && (ca || cf)) || (kb == ke)) &&
      (!(db && (ca || cf)) || !(df && (cb || ce)) || (kb == kf)) && (!(de && (ca || cf)) || !(df && (cb || ce)) || (ke == kf))) = true →
    bval ca da ka cb db kb + bval cb db kb cf df kf = bval ca da ka ce de ke + bval ce de ke cf df kf := by
  decide +kernel

theorem square_closed (ca da cb db ce de cf df : Bool)
    (g1 : (!(ca && da)) = true) (g2 : (!(cb && db)) = true) (g3 : (!(ce && de)) = true) (g4 : (!(cf && df)) = true)
    (i1 : da → !db → cb) (i2 : db → !da → ca) (i3 : da → !de → ce) (i4 : de → !da → ca) (i5 : db → !df → cf) (i6 : df → !db → cb)
    (i7 : de → !df → cf) (i8 : df → !de → ce) (ka kb ke kf : Bool)
    (j1 : (da && (cb || ce)) → (db && (ca || cf)) → ka = kb) (j2 : (da && (cb || ce)) → (de && (ca || cf)) → ka = ke)
    (j3 : (da && (cb || ce)) → (df && (cb || ce)) → ka = kf) (j4 : (db && (ca || cf)) → (de && (ca || cf)) → kb = ke)
    (j5 : (db && (ca || cf)) → (df && (cb || ce)) → kb = kf) (j6 : (de && (ca || cf)) → (df && (cb || ce)) → ke = kf) :
    bval ca da ka cb db kb + bval cb db kb cf df kf = bval ca da ka ce de ke + bval ce de ke cf df kf := by
  have imp : ∀ {x y z : Bool}, (x → !y → z) → (!x || y || z) = true := by decide
  have imq : ∀ {x y a b : Bool}, (x → y → a = b) → (!x || !y || (a == b)) = true := by decide
  refine square_closed_bool ca da cb db ce de cf df ka kb ke kf ?_
  simp only [Bool.and_eq_true]
  exact ⟨⟨⟨⟨⟨⟨⟨⟨⟨⟨⟨⟨⟨⟨⟨⟨⟨g1, g2⟩, g3⟩, g4⟩, imp i1⟩, imp i2⟩, imp i3⟩, imp i4⟩, imp i5⟩, imp i6⟩, imp i7⟩, imp i8⟩, imq j1⟩, imq j2⟩, imq j3⟩,
    imq j4⟩, imq j5⟩, imq j6⟩

/-! ### The boundary -/

theorem boundary_joined {em : Int × Int → Prop} {C D : Int × Int → Prop}
    (hC : ∀ p q, C p → C q → Relation.ReflTransGen (fun x y => C x ∧ C y ∧ ∃ d : Dir, y = x + d.vec) p q)
    (hD : ∀ p q, D p → D q → Relation.ReflTransGen (fun x y => D x ∧ D y ∧ ∃ d : Dir, y = x + d.vec) p q)
    (hCD : ∀ p, C p → ¬ D p) (hb : ∀ p (d : Dir), D p → ¬ D (p + d.vec) → C (p + d.vec))
    (he : ∀ p (d : Dir), C p → D (p + d.vec) → em (p + d.vec))
    {p p' : Int × Int} {d d' : Dir} (h1 : C p) (h2 : D (p + d.vec)) (h3 : C p') (h4 : D (p' + d'.vec)) :
    Relation.ReflTransGen (fun x y => em x ∧ em y ∧ Near x y) (p + d.vec) (p' + d'.vec) := by
  classical
  by_contra hcon
  set K : Int × Int → Prop := fun x => Relation.ReflTransGen (fun x y => em x ∧ em y ∧ Near x y) (p + d.vec) x with hK
  let c : Int × Int → Bool := fun x => decide (C x)
  let e : Int × Int → Bool := fun x => decide (D x)
  let k : Int × Int → Bool := fun x => decide (K x)
  let w : Int × Int → Int × Int → Int := fun x y => bval (c x) (e x) (k x) (c y) (e y) (k y)
  have sub : ∀ (x : Int × Int) (d : Dir), x = x + d.vec + d.opp.vec := by
    intro x d
    have : d.vec + d.opp.vec = 0 := by cases d <;> rfl
    rw [add_assoc, this, add_zero]
  -- points of one square in the boundary
  have Kiff : ∀ x y, em x → em y → Near x y → k x = k y := by
    intro x y hx hy hn
    have : K x ↔ K y := ⟨fun h => h.tail ⟨hx, hy, hn⟩, fun h => h.tail ⟨hy, hx, by simp only [Near] at hn ⊢; omega⟩⟩
    simp only [k, this]
  have emOf : ∀ x (d : Dir), D x → C (x + d.vec) → em x := by
    intro x d hx hc
    have := he (x + d.vec) d.opp hc
    rw [← sub] at this
    exact this hx
  have nb : ∀ x (d : Dir), e x = true → (!e (x + d.vec)) = true → c (x + d.vec) = true := by
    intro x d h1 h2
    simp only [c, e, Bool.not_eq_true', decide_eq_true_eq, decide_eq_false_iff_not] at *
    exact hb x d h1 h2
  have nb' : ∀ x (d : Dir), e (x + d.vec) = true → (!e x) = true → c x = true := by
    intro x d h1 h2
    have := nb (x + d.vec) d.opp
    rw [← sub] at this
    exact this h1 h2
  have dis : ∀ x, (!(c x && e x)) = true := by
    intro x
    by_cases hx : C x
    · have := hCD x hx
      simp [c, e, this]
    · simp [c, e, hx]
  have emB : ∀ x (d1 d2 : Dir), (e x && (c (x + d1.vec) || c (x + d2.vec))) = true → em x := by
    intro x d1 d2 h
    simp only [c, e, Bool.and_eq_true, Bool.or_eq_true, decide_eq_true_eq] at h
    rcases h.2 with h' | h'
    · exact emOf x d1 h.1 h'
    · exact emOf x d2 h.1 h'
  have hcl : ∀ a : Int × Int, w a (a + Dir.right.vec) + w (a + Dir.right.vec) (a + Dir.right.vec + Dir.down.vec) =
      w a (a + Dir.down.vec) + w (a + Dir.down.vec) (a + Dir.right.vec + Dir.down.vec) := by
    intro a
    have eq1 : a + Dir.right.vec + Dir.down.vec = a + Dir.down.vec + Dir.right.vec := by rw [add_right_comm]
    have A := emB a .right .down
    have B := emB (a + Dir.right.vec) .left .down
    have E := emB (a + Dir.down.vec) .up .right
    have F := emB (a + Dir.right.vec + Dir.down.vec) .up .left
    rw [show a + Dir.right.vec + Dir.left.vec = a from (sub a .right).symm] at B
    rw [show a + Dir.down.vec + Dir.up.vec = a from (sub a .down).symm, ← eq1] at E
    rw [show a + Dir.right.vec + Dir.down.vec + Dir.up.vec = a + Dir.right.vec from (sub _ .down).symm,
      show a + Dir.right.vec + Dir.down.vec + Dir.left.vec = a + Dir.down.vec by rw [eq1]; exact (sub _ .right).symm] at F
    have N1 := nb (a + Dir.right.vec) .down
    have N1' := nb' (a + Dir.right.vec) .down
    have N2 := nb (a + Dir.down.vec) .right
    have N2' := nb' (a + Dir.down.vec) .right
    rw [← eq1] at N2 N2'
    have n1 : Near a (a + Dir.right.vec) := by simp [Near, Dir.vec]
    have n2 : Near a (a + Dir.down.vec) := by simp [Near, Dir.vec]
    have n3 : Near a (a + Dir.right.vec + Dir.down.vec) := by simp [Near, Dir.vec]
    have n4 : Near (a + Dir.right.vec) (a + Dir.down.vec) := by simp [Near, Dir.vec]
    have n5 : Near (a + Dir.right.vec) (a + Dir.right.vec + Dir.down.vec) := by simp [Near, Dir.vec]
    have n6 : Near (a + Dir.down.vec) (a + Dir.right.vec + Dir.down.vec) := by simp [Near, Dir.vec]
    exact square_closed (c a) (e a) (c (a + Dir.right.vec)) (e (a + Dir.right.vec)) (c (a + Dir.down.vec)) (e (a + Dir.down.vec))
      (c (a + Dir.right.vec + Dir.down.vec)) (e (a + Dir.right.vec + Dir.down.vec)) (dis _) (dis _) (dis _) (dis _)
      (nb a .right) (nb' a .right) (nb a .down) (nb' a .down) N1 N1' N2 N2' (k a) (k (a + Dir.right.vec)) (k (a + Dir.down.vec))
      (k (a + Dir.right.vec + Dir.down.vec)) (fun x y => Kiff _ _ (A x) (B y) n1) (fun x y => Kiff _ _ (A x) (E y) n2)
      (fun x y => Kiff _ _ (A x) (F y) n3) (fun x y => Kiff _ _ (B x) (E y) n4) (fun x y => Kiff _ _ (B x) (F y) n5)
      (fun x y => Kiff _ _ (E x) (F y) n6)
  -- the function
  obtain ⟨f, fh, fv⟩ := exists_plane_potential (h := fun r c => w (r, c) (r, c + 1)) (v := fun r c => w (r, c) (r + 1, c)) (by
    intro r c
    have := hcl (r, c)
    simp only [Dir.vec, Prod.mk_add_mk, add_zero] at this
    exact this)
  have anti : ∀ x y, w x y = -w y x := by
    intro x y
    simp only [w, bval]
    rw [neg_sub, Bool.and_right_comm (c x), Bool.and_comm (c x) (k y), Bool.and_right_comm (e x)]
    congr 2 <;> simp only [Bool.and_comm, Bool.and_left_comm, Bool.and_assoc]
  have step : ∀ (x : Int × Int) (d : Dir), f (x + d.vec).1 (x + d.vec).2 - f x.1 x.2 = w x (x + d.vec) := by
    rintro ⟨r, c⟩ d
    cases d
    · simpa [Dir.vec] using fh r c
    · simpa [Dir.vec] using fv r c
    · have := fh r (c - 1)
      rw [sub_add_cancel] at this
      rw [anti]
      simp only [Dir.vec, Prod.mk_add_mk, add_zero, ← sub_eq_add_neg]
      omega
    · have := fv (r - 1) c
      rw [sub_add_cancel] at this
      rw [anti]
      simp only [Dir.vec, Prod.mk_add_mk, add_zero, ← sub_eq_add_neg]
      omega
  have constC : ∀ x y, C x → C y → f x.1 x.2 = f y.1 y.2 := by
    intro x y hx hy
    have := hC x y hx hy
    induction this with
    | refl => rfl
    | @tail y z hxy hyz ih =>
      obtain ⟨hy', hz', d, rfl⟩ := hyz
      have s := step y d
      have : w y (y + d.vec) = 0 := by simp [w, bval, c, e, hCD _ hy', hCD _ hz']
      rw [ih hy']
      omega
  have constD : ∀ x y, D x → D y → f x.1 x.2 = f y.1 y.2 := by
    intro x y hx hy
    have := hD x y hx hy
    induction this with
    | refl => rfl
    | @tail y z hxy hyz ih =>
      obtain ⟨hy', hz', d, rfl⟩ := hyz
      have s := step y d
      have n1 : ¬ C y := fun h => hCD _ h hy'
      have n2 : ¬ C (y + d.vec) := fun h => hCD _ h hz'
      have : w y (y + d.vec) = 0 := by simp [w, bval, c, e, n1, n2]
      rw [ih hy']
      omega
  have s1 := step p d
  have s2 := step p' d'
  have v1 : w p (p + d.vec) = 1 := by
    have : K (p + d.vec) := Relation.ReflTransGen.refl
    simp [w, bval, c, e, k, h1, h2, hCD _ h1, this]
  have v2 : w p' (p' + d'.vec) = 0 := by
    have : ¬ K (p' + d'.vec) := hcon
    simp [w, bval, c, e, k, h3, h4, hCD _ h3, this]
  have := constC p p' h1 h3
  have := constD _ _ h2 h4
  omega

end SqPerc
