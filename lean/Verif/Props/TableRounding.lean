import Verif.Props.Rounding
import Verif.Props.Averages
import Verif.Props.Orders
/-
Property C88: the averaged tables in rounded arithmetic.
-/
namespace SqPerc

variable {L : Nat} {v : Variant} {α : Type} {val : α → ℝ} {ok : α → Prop}

/-- Division with gradual underflow: the error is at most `u` times the result, or `u` times the smallest normal number `lo` if the result is
smaller than that.  (IEEE doubles: `u = 2⁻⁵³`, `lo = 2⁻¹⁰²²`.) -/
def Gradual (ar : Arith α) (val : α → ℝ) (ok : α → Prop) (u lo hi : ℝ) : Prop := ∀ x y, ok x → ok y → val y ≠ 0 → |val x / val y| ≤ hi →
  ok (ar.div x y) ∧ |val (ar.div x y) - val x / val y| ≤ u * max |val x / val y| lo

/-- Everything fits for an ensemble of `E` realisations. -/
structure FitsE (u lo hi : ℝ) (L E : Nat) : Prop extends Fits u lo hi L where
  pos_E : 0 < E
  small_E : u * (E + 2) ≤ 1
  over_E : 4 * scale L * (E + 2) ≤ hi

section
variable {u lo hi : ℝ} {env : Env α} {N : Nat}

/-- Summation from left to right, rounded. -/
theorem sumFrom_err (hu : 0 ≤ u) (R : Rounded env.ar val ok u lo hi N) {X : ℝ} (hX : 0 ≤ X) (x : α) (hx : ok x ∧ |val x| ≤ X) (xs : List α)
    (hxs : ∀ y ∈ xs, ok y ∧ |val y| ≤ X) (hsm : u * (xs.length + 2) ≤ 1) (hhi : 2 * X * (xs.length + 2) ≤ hi) :
    ok (sumFrom env x xs) ∧ |val (sumFrom env x xs) - ((x :: xs).map val).sum| ≤ u * X * (xs.length * (xs.length + 3)) := by
  induction xs using List.reverseRecOn with
  | nil => exact ⟨hx.1, by simp [sumFrom]⟩
  | append_singleton ys y ih =>
    rw [List.length_append, List.length_singleton] at *
    push_cast at *
    generalize hn : (ys.length : ℝ) = n at *
    have hn0 : 0 ≤ n := by rw [← hn]; positivity
    obtain ⟨oa, ih⟩ := ih (fun z hz => hxs z (by simp [hz])) (by nlinarith) (by nlinarith)
    obtain ⟨oy, hy⟩ := hxs y (by simp)
    have hsum : ∀ zs : List α, (∀ z ∈ zs, |val z| ≤ X) → |(zs.map val).sum| ≤ zs.length * X := by
      intro zs
      induction zs with
      | nil => intro _; simp
      | cons z zs ihz =>
        intro hz
        rw [List.map_cons, List.sum_cons, List.length_cons]
        push_cast
        have h1 := abs_add_le (val z) (zs.map val).sum
        have h2 := ihz fun w hw => hz w (by simp [hw])
        have h3 := hz z (by simp)
        linarith
    have h1 : |((x :: ys).map val).sum| ≤ (n + 1) * X := by
      have := hsum (x :: ys) (by
        intro z hz
        rcases List.mem_cons.1 hz with rfl | hz
        · exact hx.2
        · exact (hxs z (by simp [hz])).2)
      rwa [List.length_cons, Nat.cast_add, Nat.cast_one, hn] at this
    have e1 : sumFrom env x (ys ++ [y]) = env.ar.add (sumFrom env x ys) y := by simp [sumFrom]
    have e2 : ((x :: (ys ++ [y])).map val).sum = ((x :: ys).map val).sum + val y := by simp [add_assoc]
    rw [e1, e2]
    generalize sumFrom env x ys = a' at *
    generalize ((x :: ys).map val).sum = b at *
    generalize ha' : val a' = a at *
    generalize hy' : val y = yv at *
    have huX : 0 ≤ u * X := mul_nonneg hu hX
    -- the partial sums stay small
    have h2 : u * X * (n * (n + 3)) ≤ X * n := by
      have h := mul_le_mul_of_nonneg_right hsm (mul_nonneg hX hn0)
      have e : u * (n + 1 + 2) * (X * n) = u * X * (n * (n + 3)) := by ring
      rw [e] at h
      linarith
    have h3 : |a + yv| ≤ |a - b| + (n + 2) * X := by
      have e : a + yv = (a - b) + (b + yv) := by ring
      rw [e]
      have h4 := abs_add_le (a - b) (b + yv)
      have h5 := abs_add_le b yv
      linarith
    have h4 : |a + yv| ≤ hi := by nlinarith
    obtain ⟨os, h5⟩ := R.add a' y oa oy (by rw [ha', hy']; exact h4)
    rw [ha', hy'] at h5
    have h6 : |val (env.ar.add a' y) - (b + yv)| ≤ |val (env.ar.add a' y) - (a + yv)| + |a - b| := by
      have := abs_sub_le (val (env.ar.add a' y)) (a + yv) (b + yv)
      have e : a + yv - (b + yv) = a - b := by ring
      rwa [e] at this
    have h7 : u * |a + yv| ≤ u * (|a - b| + (n + 2) * X) := mul_le_mul_of_nonneg_left h3 hu
    have h8 : u * |a - b| ≤ u * (X * n) := mul_le_mul_of_nonneg_left (ih.trans h2) hu
    exact ⟨os, by nlinarith⟩

/-- The mean of rounded entries. -/
theorem mean_err (hu : 0 ≤ u) (R : Rounded env.ar val ok u lo hi N) (G : Gradual env.ar val ok u lo hi) {X δ : ℝ} {x : α} {xs : List α} {E : Nat}
    (hE : xs.length + 1 = E) (hEN : E ≤ N) (hX : 0 ≤ X) (hlo : lo ≤ X) (hx : ∀ y ∈ x :: xs, ok y ∧ |val y| ≤ X) (hsm : u * (E + 2) ≤ 1)
    (hhi : 2 * X * (E + 2) ≤ hi) {ys : List ℝ} (hys : List.Forall₂ (fun a b => |val a - b| ≤ δ) (x :: xs) ys) :
    ok (env.ar.div (sumFrom env x xs) (env.ar.ofNat E)) ∧ |val (env.ar.div (sumFrom env x xs) (env.ar.ofNat E)) - ys.sum / E| ≤ δ + u * X * (E + 4) := by
  have hE0 : (1 : ℝ) ≤ E := by exact_mod_cast (by omega : 1 ≤ E)
  have hn : (xs.length : ℝ) = E - 1 := by rw [← hE]; push_cast; ring
  have huX : 0 ≤ u * X := mul_nonneg hu hX
  obtain ⟨oa, h1⟩ := sumFrom_err hu R hX x (hx x (by simp)) xs (fun y hy => hx y (by simp [hy])) (by rw [hn]; nlinarith) (by rw [hn]; nlinarith)
  rw [hn] at h1
  have hsum : ∀ {as : List α} {bs : List ℝ}, List.Forall₂ (fun a b => |val a - b| ≤ δ) as bs → |(as.map val).sum - bs.sum| ≤ as.length * δ := by
    intro as bs h
    induction h with
    | nil => simp
    | @cons a b as bs h _ ih =>
      rw [List.map_cons, List.sum_cons, List.sum_cons, List.length_cons]
      push_cast
      have e : val a + (as.map val).sum - (b + bs.sum) = (val a - b) + ((as.map val).sum - bs.sum) := by ring
      rw [e]
      have := abs_add_le (val a - b) ((as.map val).sum - bs.sum)
      linarith
  have h2 := hsum hys
  have hl : ((x :: xs).length : ℝ) = E := by rw [List.length_cons]; exact_mod_cast congrArg Nat.cast hE
  rw [hl] at h2
  have hb : ∀ zs : List α, (∀ z ∈ zs, |val z| ≤ X) → |(zs.map val).sum| ≤ zs.length * X := by
    intro zs
    induction zs with
    | nil => intro _; simp
    | cons z zs ihz =>
      intro hz
      rw [List.map_cons, List.sum_cons, List.length_cons]
      push_cast
      have h1 := abs_add_le (val z) (zs.map val).sum
      have h2 := ihz fun w hw => hz w (by simp [hw])
      have h3 := hz z (by simp)
      linarith
  have h3 := hb _ fun y hy => (hx y hy).2
  rw [hl] at h3
  obtain ⟨oE, wE⟩ := R.ofNat E hEN
  generalize sumFrom env x xs = a' at *
  generalize ha' : val a' = a at *
  generalize ((x :: xs).map val).sum = b at *
  have hEp : (0 : ℝ) < E := by linarith
  -- the exact quotient of the rounded sum
  have h4 : |a / E - b / E| ≤ u * X * (E + 1) := by
    rw [← sub_div, abs_div, abs_of_pos hEp, div_le_iff₀ hEp]
    refine h1.trans ?_
    rw [mul_assoc (u * X)]
    apply mul_le_mul_of_nonneg_left _ huX
    nlinarith
  have h5 : |b / E - ys.sum / E| ≤ δ := by
    rw [← sub_div, abs_div, abs_of_pos hEp, div_le_iff₀ hEp]
    linarith
  have h6 : |b / E| ≤ X := by
    rw [abs_div, abs_of_pos hEp, div_le_iff₀ hEp]
    linarith
  have h7 : |a / E| ≤ 2 * X := by
    have := abs_sub_abs_le_abs_sub (a / E) (b / E)
    have h8 : u * X * (E + 1) ≤ X := by nlinarith
    linarith
  obtain ⟨od, h8⟩ := G a' (env.ar.ofNat E) oa oE (by rw [wE]; exact hEp.ne') (by rw [ha', wE]; exact h7.trans (by nlinarith))
  rw [ha', wE] at h8
  have h9 : max |a / E| lo ≤ 2 * X := max_le h7 (by linarith)
  have h10 := mul_le_mul_of_nonneg_left h9 hu
  have h11 := abs_sub_le (val (env.ar.div a' (env.ar.ofNat E))) (a / E) (ys.sum / E)
  have h12 := abs_sub_le (a / E) (b / E) (ys.sum / E)
  exact ⟨od, by nlinarith⟩

/-- What the drivers write, in rounded arithmetic. -/
structure TableNear (val : α → ℝ) (ok : α → Prop) (u : ℝ) (L E : Nat) (qs : List (List Nat)) (data : List (List α)) : Prop where
  length : data.length = L * L
  row : ∀ k < L * L, ∃ p h a b, data[k]? = some [p, h, a, b] ∧ (ok p ∧ ok h ∧ ok a ∧ ok b) ∧
    |val p - ((k + 1 : Nat) : ℝ) / (L * L : Nat)| ≤ u * (2 * E + 9) * (((k + 1 : Nat) : ℝ) / (L * L : Nat)) ∧
    |val h - meanOver qs fun q => shannon L (· ∈ q.take (k + 1))| ≤ u * (Real.log (2 * (L * L) : Nat) + 1) * (20 * (k + 2) + 2 * (E + 4)) ∧
    |val a - meanOver qs fun q => (seqLargest L (q.take (k + 1)) : ℝ) / (2 * (L * L) : Nat)| ≤ u * (2 * E + 9) ∧
    |val b - meanOver qs fun q => (seqWrapping L (q.take (k + 1)) : ℝ) / (2 * (L * L) : Nat)| ≤ u * (2 * E + 9)

/-- A rounded fraction. -/
theorem frac_err (F : Fits u lo hi L) (R : Rounded env.ar val ok u lo hi N) (G : Gradual env.ar val ok u lo hi) {n m : Nat} (hm : 0 < m) (hnm : n ≤ m)
    (hmB : m ≤ 2 * (L * L)) (hBN : 2 * (L * L) ≤ N) :
    ok (env.ar.div (env.ar.ofNat n) (env.ar.ofNat m)) ∧ |val (env.ar.div (env.ar.ofNat n) (env.ar.ofNat m)) - (n : ℝ) / m| ≤ u ∧
      (0 < n → |val (env.ar.div (env.ar.ofNat n) (env.ar.ofNat m)) - (n : ℝ) / m| ≤ u * ((n : ℝ) / m)) := by
  have hm' : (0 : ℝ) < m := by exact_mod_cast hm
  have h0 : 0 ≤ (n : ℝ) / m := by positivity
  have h1 : (n : ℝ) / m ≤ 1 := by rw [div_le_one hm']; exact_mod_cast hnm
  have h2 := F.two_le
  have h3 := F.over
  have hmB' : (m : ℝ) ≤ (2 * (L * L) : Nat) := by exact_mod_cast hmB
  have hlo : lo * m ≤ 1 := by
    rcases le_or_gt lo 0 with h | h
    · nlinarith
    · have h4 := F.under
      have h5 : (m : ℝ) ≤ 8 * ((2 * (L * L) : Nat) * (2 * (L * L) : Nat)) := by nlinarith
      nlinarith
  obtain ⟨o1, w1⟩ := R.ofNat n (by omega)
  obtain ⟨o2, w2⟩ := R.ofNat m (by omega)
  obtain ⟨od, h6⟩ := G (env.ar.ofNat n) (env.ar.ofNat m) o1 o2 (by rw [w2]; exact hm'.ne') (by rw [w1, w2, abs_of_nonneg h0]; linarith)
  rw [w1, w2, abs_of_nonneg h0] at h6
  have hlo1 : lo ≤ 1 / m := by rw [le_div_iff₀ hm']; exact hlo
  have hm1 : 1 / (m : ℝ) ≤ 1 := by rw [div_le_one hm']; exact_mod_cast hm
  refine ⟨od, ?_, ?_⟩
  · refine h6.trans ?_
    have := mul_le_mul_of_nonneg_left (max_le h1 (hlo1.trans hm1)) F.u0
    linarith
  · intro hn
    have h7 : 1 / (m : ℝ) ≤ n / m := by
      rw [div_le_div_iff_of_pos_right hm']; exact_mod_cast hn
    rw [max_eq_left (hlo1.trans h7)] at h6
    exact h6

theorem regroup {a b c d e f g h : Prop} : ((a ∧ b ∧ c ∧ d) ∧ e ∧ f ∧ g ∧ h) ↔ ((a ∧ e) ∧ (b ∧ f) ∧ (c ∧ g) ∧ d ∧ h) := by tauto

/-- C88: the tables of the ensemble drivers in rounded arithmetic.  With `E` realisations in the placement orders `qs` every entry is close to
its exact mean: the occupation column up to a relative error of `u (2E + 9)`, the two order parameters up to `u (2E + 9)`, the entropy in row
`k` up to `u (log(2L²) + 1) (20 (k + 2) + 2 (E + 4))`.  The numbers of sites and bonds in the critical values are exact, the threshold has a
relative error of at most `u`. -/
theorem C88_table_of (hv : v ≠ .sp) {rs : List RunDraws} (F : FitsE u lo hi L rs.length) (R : Rounded env.ar val ok u lo hi N)
    (hBN : 2 * (L * L) ≤ N) (hEN : rs.length ≤ N) (G : Gradual env.ar val ok u lo hi) (pl : Bool) (ctor : Nat → Nat)
    (hf : ∀ r ∈ rs, 5 * (L * L) < r.fuel) {qs : List (List Nat)} (O : Orders env v L ctor rs qs) :
    ∃ (data : List (List α)) (crit : List (CritRow α)), qs.length = rs.length ∧ (∀ q ∈ qs, q.Perm (List.range (L * L))) ∧
      runEnsemble env v pl L ctor rs = .ok (data, crit) ∧ runEnsembleThreads env v L ctor rs = .ok data ∧
      TableNear val ok u L rs.length qs data ∧
      List.Forall₂ (fun q r => ∃ r', CritOf L q r' ∧ ok r.pc ∧ |val r.pc - r'.pc| ≤ u * r'.pc ∧ r.sites = r'.sites ∧ r.bonds = r'.bonds) qs crit := by
  have hL := F.pos
  have hne : rs ≠ [] := by intro h; have := F.pos_E; rw [h] at this; simp at this
  have hN0 : 0 < L * L := Nat.mul_pos hL hL
  obtain ⟨S0, x0, xs, rfl, e0, hR, hfin, h1, h2⟩ := ensemble_tables_of (env := env) hv hL pl ctor hne hf O
  have hlen : (x0 :: xs).length = rs.length := by rw [← hR.length, List.length_map]
  have hu := F.u0
  have hu1 := F.u_le
  have hsc : 1 ≤ scale L := by unfold scale; linarith [F.log_nonneg]
  have hB2 := F.two_le
  have hlo1 : lo ≤ 1 := by
    rcases le_or_gt lo 0 with h | h
    · linarith
    · have := F.under; nlinarith
  have hEr : (1 : ℝ) ≤ rs.length := by exact_mod_cast F.pos_E
  refine ⟨_, _, by rw [List.length_map, hlen], ?_, h1, h2, ⟨by simp [tableOf], ?_⟩, ?_⟩
  · intro q hq
    obtain ⟨x, hx, rfl⟩ := List.mem_map.1 hq
    exact (hfin x hx).perm
  · intro k hk
    refine ⟨_, _, _, _, by rw [tableOf, List.getElem?_map, List.getElem?_range hk]; rfl, ?_⟩
    rw [regroup]
    -- one column
    have key : ∀ (c : Nat) (X δ : ℝ) (f : List Nat → ℝ), 0 ≤ X → lo ≤ X → 2 * X * (rs.length + 2) ≤ hi →
        (∀ x ∈ x0 :: xs, |val (x.2.2 k c)| ≤ X ∧ ok (x.2.2 k c) ∧ |val (x.2.2 k c) - f x.2.1| ≤ δ) →
        ok (env.ar.div (sumFrom env (x0.2.2 k c) (xs.map fun x => x.2.2 k c)) (env.ar.ofNat rs.length)) ∧
        |val (env.ar.div (sumFrom env (x0.2.2 k c) (xs.map fun x => x.2.2 k c)) (env.ar.ofNat rs.length)) -
          meanOver ((x0 :: xs).map (·.2.1)) f| ≤ δ + u * X * (rs.length + 4) := by
      intro c X δ f hX hlX hhi hx
      have := mean_err (xs := xs.map fun x => x.2.2 k c) (x := x0.2.2 k c) (E := rs.length) (δ := δ) (X := X)
        (ys := ((x0 :: xs).map (·.2.1)).map f) hu R G (by rw [List.length_map, ← hlen]; rfl) hEN hX hlX ?_ F.small_E hhi ?_
      · rw [meanOver, List.length_map, hlen]
        exact this
      · intro y hy
        have hy : y ∈ (x0 :: xs).map fun x => x.2.2 k c := hy
        obtain ⟨x, hx', rfl⟩ := List.mem_map.1 hy
        exact ⟨(hx x hx').2.1, (hx x hx').1⟩
      · show List.Forall₂ _ ((x0 :: xs).map fun x => x.2.2 k c) _
        rw [List.forall₂_map_left_iff, List.map_map, List.forall₂_map_right_iff, List.forall₂_same]
        exact fun x hx' => (hx x hx').2.2
    have hover := F.over_E
    have bd : ∀ x ∈ x0 :: xs, _ := fun x hx => order_bounds (q := x.2.1.take (k + 1)) hL
      (((hfin x hx).perm.nodup_iff.2 List.nodup_range).sublist (List.take_sublist _ _))
      (fun s hs => List.mem_range.1 ((hfin x hx).perm.mem_iff.1 (List.mem_of_mem_take hs)))
    have hl : ∀ x ∈ x0 :: xs, (x.2.1.take (k + 1)).length = k + 1 := fun x hx => by
      rw [List.length_take, (hfin x hx).perm.length_eq, List.length_range, Nat.min_eq_left hk]
    have hN' : (0 : ℝ) < (L * L : Nat) := by exact_mod_cast hN0
    have hkp : (0 : ℝ) < ((k + 1 : Nat) : ℝ) / (L * L : Nat) := by positivity
    have hk1 : ((k + 1 : Nat) : ℝ) / (L * L : Nat) ≤ 1 := by rw [div_le_one hN']; exact_mod_cast hk
    have hover2 : 2 * 2 * ((rs.length : ℝ) + 2) ≤ hi := by nlinarith
    have unit : ∀ y z : ℝ, 0 ≤ z → z ≤ 1 → |y - z| ≤ u → |y| ≤ 2 := by
      intro y z h0 h1 h
      have := abs_sub_abs_le_abs_sub y z
      rw [abs_of_nonneg h0] at this
      linarith
    refine ⟨?_, ?_, ?_, ?_⟩
    · have hx : ∀ x ∈ x0 :: xs, ok (x.2.2 k 0) ∧ |val (x.2.2 k 0) - ((k + 1 : Nat) : ℝ) / (L * L : Nat)| ≤ u * (((k + 1 : Nat) : ℝ) / (L * L : Nat)) := by
        intro x hx
        rw [(hfin x hx).prob k hk, prob, hl x hx]
        have := frac_err F.toFits R G hN0 hk (by omega) hBN
        exact ⟨this.1, this.2.2 (Nat.succ_pos k)⟩
      have hlok : lo ≤ 2 * (((k + 1 : Nat) : ℝ) / (L * L : Nat)) := by
        rcases le_or_gt lo 0 with h | h
        · linarith
        · have h3 := F.under
          have h4 : lo * (L * L : Nat) ≤ 1 := by
            have h5 : ((L * L : Nat) : ℝ) ≤ 8 * ((2 * (L * L) : Nat) * (2 * (L * L) : Nat)) := by
              have : ((2 * (L * L) : Nat) : ℝ) = 2 * (L * L : Nat) := by push_cast; ring
              nlinarith
            nlinarith
          have h5 : lo ≤ 1 / (L * L : Nat) := by rw [le_div_iff₀ hN']; exact h4
          have h6 : 1 / ((L * L : Nat) : ℝ) ≤ ((k + 1 : Nat) : ℝ) / (L * L : Nat) := by
            rw [div_le_div_iff_of_pos_right hN']; exact_mod_cast Nat.succ_pos k
          linarith
      have h3 := key 0 (2 * (((k + 1 : Nat) : ℝ) / (L * L : Nat))) (u * (((k + 1 : Nat) : ℝ) / (L * L : Nat)))
        (fun _ => ((k + 1 : Nat) : ℝ) / (L * L : Nat)) (by linarith) hlok (by nlinarith) fun x hx' => ⟨?_, hx x hx'⟩
      · have e : meanOver ((x0 :: xs).map (·.2.1)) (fun _ => ((k + 1 : Nat) : ℝ) / (L * L : Nat)) = ((k + 1 : Nat) : ℝ) / (L * L : Nat) := by
          simp only [meanOver, List.map_const', List.sum_replicate, nsmul_eq_mul, List.length_map]
          have : ((x0 :: xs).length : ℝ) ≠ 0 := by rw [hlen]; linarith
          field_simp
        rw [e] at h3
        refine ⟨h3.1, h3.2.trans (le_of_eq ?_)⟩
        ring
      · have h4 := abs_sub_abs_le_abs_sub (val (x.2.2 k 0)) (((k + 1 : Nat) : ℝ) / (L * L : Nat))
        rw [abs_of_pos hkp] at h4
        have := (hx x hx').2
        nlinarith
    · have hk2 : ((k : ℝ) + 2) ≤ 2 * (L * L : Nat) := by exact_mod_cast (by omega : k + 2 ≤ 2 * (L * L))
      have hsmall := F.small
      have hB : ((2 * (L * L) : Nat) : ℝ) = 2 * (L * L : Nat) := by push_cast; ring
      have hδ : 20 * u * scale L * (k + 2) ≤ scale L := by
        have h3 : u * (k + 2) ≤ 1 / 64 := by
          have := mul_le_mul_of_nonneg_left hk2 hu
          rw [hB] at hsmall
          linarith
        have := mul_le_mul_of_nonneg_right h3 (by linarith : 0 ≤ scale L)
        nlinarith
      have hx : ∀ x ∈ x0 :: xs, ok (x.2.2 k 1) ∧ |val (x.2.2 k 1) - shannon L (· ∈ x.2.1.take (k + 1))| ≤ 20 * u * scale L * (k + 2) := by
        intro x hx
        have := (hfin x hx).entropyRel (fun y q => ok y ∧ |val y - shannon L (· ∈ q)| ≤ 20 * u * scale L * (q.length + 1))
          (fun T q hT => hT.drift F.toFits (⟨fun n hn => R.ofNat n (hn.trans hBN), R.add, R.sub, R.mul, R.div, R.div_self, R.neg, R.log⟩)) k hk
        rw [hl x hx] at this
        push_cast at this
        have e : (k : ℝ) + 1 + 1 = k + 2 := by ring
        rwa [e] at this
      have h3 := key 1 (2 * scale L) (20 * u * scale L * (k + 2)) (fun q => shannon L (· ∈ q.take (k + 1))) (by linarith) (by linarith)
        (by linarith) fun x hx' => ⟨?_, hx x hx'⟩
      · refine ⟨h3.1, h3.2.trans (le_of_eq ?_)⟩
        unfold scale
        ring
      · have h4 := abs_sub_abs_le_abs_sub (val (x.2.2 k 1)) (shannon L (· ∈ x.2.1.take (k + 1)))
        obtain ⟨b1, b2, _⟩ := bd x hx'
        rw [abs_of_nonneg b1] at h4
        have := (hx x hx').2
        have : Real.log (2 * (L * L) : Nat) ≤ scale L := by unfold scale; linarith
        linarith
    · have hB0 : 0 < 2 * (L * L) := by omega
      have hB' : (0 : ℝ) < (2 * (L * L) : Nat) := by exact_mod_cast hB0
      have hx : ∀ x ∈ x0 :: xs, ok (x.2.2 k 2) ∧ |val (x.2.2 k 2) - (seqLargest L (x.2.1.take (k + 1)) : ℝ) / (2 * (L * L) : Nat)| ≤ u := by
        intro x hx
        rw [(hfin x hx).largest k hk, ordL]
        exact (frac_err F.toFits R G hB0 (bd x hx).2.2.2.1 le_rfl hBN).imp_right And.left
      have h3 := key 2 2 u (fun q => (seqLargest L (q.take (k + 1)) : ℝ) / (2 * (L * L) : Nat)) (by norm_num) (by linarith) hover2
        fun x hx' => ⟨unit _ _ (by positivity) (by rw [div_le_one hB']; exact_mod_cast (bd x hx').2.2.2.1) (hx x hx').2, hx x hx'⟩
      refine ⟨h3.1, h3.2.trans (le_of_eq ?_)⟩
      ring
    · have hB0 : 0 < 2 * (L * L) := by omega
      have hB' : (0 : ℝ) < (2 * (L * L) : Nat) := by exact_mod_cast hB0
      have hx : ∀ x ∈ x0 :: xs, ok (x.2.2 k 3) ∧ |val (x.2.2 k 3) - (seqWrapping L (x.2.1.take (k + 1)) : ℝ) / (2 * (L * L) : Nat)| ≤ u := by
        intro x hx
        rw [(hfin x hx).wrapping k hk, ordW]
        split
        · exact (frac_err F.toFits R G hB0 ((bd x hx).2.2.1.trans (bd x hx).2.2.2.1) le_rfl hBN).imp_right And.left
        · next h =>
          obtain ⟨o0, w0⟩ := R.ofNat 0 (by omega)
          rw [← ordW_real (so := demoSet), ordW, if_neg h, w0]
          refine ⟨o0, ?_⟩
          show |((0 : Nat) : ℝ) - ((0 : Nat) : ℝ)| ≤ u
          simpa using hu
      have h3 := key 3 2 u (fun q => (seqWrapping L (q.take (k + 1)) : ℝ) / (2 * (L * L) : Nat)) (by norm_num) (by linarith) hover2
        fun x hx' => ⟨unit _ _ (by positivity) (by
          rw [div_le_one hB']; exact_mod_cast (bd x hx').2.2.1.trans (bd x hx').2.2.2.1) (hx x hx').2, hx x hx'⟩
      refine ⟨h3.1, h3.2.trans (le_of_eq ?_)⟩
      ring
  · rw [List.forall₂_map_left_iff, List.forall₂_map_right_iff, List.forall₂_same]
    intro x hx
    by_cases hL3 : 3 ≤ L
    case neg =>
      obtain ⟨_, A, M, hA, _⟩ := (hfin x hx).trace.sim
      have hfl := (hA.wrap.flat (by omega)).2
      obtain ⟨_, o2, o3, _⟩ := hA.wrap.off hfl
      have hpc : x.1.getPc env = env.ar.ofNat 0 := by rw [Perc.getPc, M.aw, hfl]; rfl
      obtain ⟨o0, w0⟩ := R.ofNat 0 (by omega)
      refine ⟨⟨0, 0, 0⟩, by rw [CritOf, if_neg hL3]; exact ⟨rfl, rfl, rfl⟩, ?_, ?_, ?_, ?_⟩
      · show ok (x.1.getPc env)
        rw [hpc]; exact o0
      · show |val (x.1.getPc env) - 0| ≤ u * 0
        rw [hpc, w0]; simp
      · show x.1.getSiteCountPc = 0
        rw [Perc.getSiteCountPc, M.pcs, o3]
      · show x.1.getBondCountPc = 0
        rw [Perc.getBondCountPc, M.pcb, o2]
    have hw : Wraps L (· ∈ x.2.1) := full_wraps (by omega) fun s hs => (hfin x hx).perm.mem_iff.2 (List.mem_range.2 hs)
    obtain ⟨pre, k, post, g1, g2, g3, g4, g5, g6⟩ := (C21_critical_values hL3 (hfin x hx).trace).1 hw
    obtain ⟨o1, _, o2⟩ : _ ∧ _ ∧ _ := frac_err F.toFits R G hN0 (n := pre.length + 1) (by
      have hlen' := (hfin x hx).perm.length_eq
      rw [g1, List.length_append, List.length_cons, List.length_range] at hlen'
      omega) (by omega) hBN
    refine ⟨⟨((pre.length + 1 : Nat) : ℝ) / (L * L : Nat), _, _⟩, ?_, ?_, ?_, g5, g6 .right⟩
    · rw [CritOf, if_pos hL3]
      exact ⟨pre, k, post, g1, g2, ⟨k, g3⟩, rfl, rfl, rfl⟩
    · show ok (x.1.getPc env)
      rw [g4]
      exact o1
    · show |val (x.1.getPc env) - _| ≤ _
      rw [g4]
      exact o2 (Nat.succ_pos _)

/-- C88: the same for the orders that the ensemble has. -/
theorem C88_table (hv : v ≠ .sp) {rs : List RunDraws} (F : FitsE u lo hi L rs.length) (R : Rounded env.ar val ok u lo hi N)
    (hBN : 2 * (L * L) ≤ N) (hEN : rs.length ≤ N) (G : Gradual env.ar val ok u lo hi) (pl : Bool) (ctor : Nat → Nat)
    (hf : ∀ r ∈ rs, 5 * (L * L) < r.fuel) :
    ∃ (qs : List (List Nat)) (data : List (List α)) (crit : List (CritRow α)), qs.length = rs.length ∧ (∀ q ∈ qs, q.Perm (List.range (L * L))) ∧
      runEnsemble env v pl L ctor rs = .ok (data, crit) ∧ runEnsembleThreads env v L ctor rs = .ok data ∧
      TableNear val ok u L rs.length qs data ∧
      List.Forall₂ (fun q r => ∃ r', CritOf L q r' ∧ ok r.pc ∧ |val r.pc - r'.pc| ≤ u * r'.pc ∧ r.sites = r'.sites ∧ r.bonds = r'.bonds) qs crit := by
  obtain ⟨qs, O⟩ := orders_exist (env := env) hv F.pos ctor (by intro h; have := F.pos_E; rw [h] at this; simp at this) hf
  exact ⟨qs, C88_table_of hv F R hBN hEN G pl ctor hf O⟩

/-- C88: if in addition `u (2E + 9) (2L² + 1) < 1`, the occupation column is strictly increasing. -/
theorem C88_increasing {E : Nat} {qs : List (List Nat)} {data : List (List α)} (hu : 0 ≤ u) (h : TableNear val ok u L E qs data)
    (hsm : u * (2 * E + 9) * (2 * (L * L : Nat) + 1) < 1) {j k : Nat} (hjk : j < k) (hk : k < L * L) {r s : List α} {p q : α}
    (hr : data[j]? = some r) (hs : data[k]? = some s) (hp : r[0]? = some p) (hq : s[0]? = some q) : val p < val q := by
  obtain ⟨p', _, _, _, e1, _, h1, _⟩ := h.row j (by omega)
  obtain ⟨q', _, _, _, e2, _, h2, _⟩ := h.row k hk
  rw [hr, Option.some.injEq] at e1
  rw [hs, Option.some.injEq] at e2
  rw [e1] at hp
  rw [e2] at hq
  obtain rfl : p' = p := by simpa using hp
  obtain rfl : q' = q := by simpa using hq
  have hN : (0 : ℝ) < (L * L : Nat) := by exact_mod_cast (by omega : 0 < L * L)
  rw [abs_le] at h1 h2
  obtain ⟨ε, hε⟩ : ∃ ε, ε = u * (2 * E + 9) := ⟨_, rfl⟩
  rw [← hε] at h1 h2 hsm
  have hε0 : 0 ≤ ε := by rw [hε]; positivity
  have hj : ((j + 1 : Nat) : ℝ) + 1 ≤ (k + 1 : Nat) := by exact_mod_cast (by omega : j + 1 + 1 ≤ k + 1)
  have hkN : ((k + 1 : Nat) : ℝ) ≤ (L * L : Nat) := by exact_mod_cast hk
  have e : ∀ x y : ℝ, y * (x / (L * L : Nat)) = y * x / (L * L : Nat) := fun x y => by ring
  have h3 : val p' ≤ ((j + 1 : Nat) : ℝ) / (L * L : Nat) * (1 + ε) := by linarith [h1.2]
  have h4 : ((k + 1 : Nat) : ℝ) / (L * L : Nat) * (1 - ε) ≤ val q' := by linarith [h2.1]
  refine lt_of_le_of_lt h3 (lt_of_lt_of_le ?_ h4)
  rw [div_mul_eq_mul_div, div_mul_eq_mul_div, div_lt_div_iff_of_pos_right hN]
  nlinarith

end

/-! ### Double precision -/

theorem binArith_gradual (p : Nat) {lo hi : ℝ} : Gradual (binArith p) id (fun _ => True) (2⁻¹ ^ (p + 1)) lo hi := by
  intro x y _ _ _ _
  refine ⟨trivial, (roundBin_err p (x / y)).trans ?_⟩
  gcongr
  exact le_max_left _ _

/-- C88: with the precision of a Python `float` (53 bits, correctly rounded operations), any side up to `2²⁰` and up to `2³⁰` realisations: the
error of the order parameters is below `2⁻²¹`, and for `L ≤ 2¹⁰`, `E ≤ 2²⁰` the occupation column is strictly increasing. -/
theorem C88_double {so : SetOrder} (hv : v ≠ .sp) {rs : List RunDraws} (hL0 : 0 < L) (hL : L ≤ 2 ^ 20) (hE0 : rs ≠ []) (hE : rs.length ≤ 2 ^ 30)
    (pl : Bool) (ctor : Nat → Nat) (hf : ∀ r ∈ rs, 5 * (L * L) < r.fuel) :
    ∃ (qs : List (List Nat)) (data : List (List ℝ)) (crit : List (CritRow ℝ)), qs.length = rs.length ∧ (∀ q ∈ qs, q.Perm (List.range (L * L))) ∧
      runEnsemble ⟨so, binArith 52⟩ v pl L ctor rs = .ok (data, crit) ∧ TableNear id (fun _ => True) (2⁻¹ ^ 53) L rs.length qs data ∧
      (2⁻¹ : ℝ) ^ 53 * (2 * rs.length + 9) ≤ 2⁻¹ ^ 21 ∧
      (L ≤ 2 ^ 10 → rs.length ≤ 2 ^ 20 → ∀ j k p q, j < k → k < L * L → (data.getD j [])[0]? = some p → (data.getD k [])[0]? = some q → p < q) := by
  have hLL : L * L ≤ 2 ^ 40 := by
    have := Nat.mul_le_mul hL hL
    omega
  have hpos : 0 < rs.length := List.length_pos_iff.2 hE0
  have hEr : (rs.length : ℝ) ≤ 2 ^ 30 := by exact_mod_cast hE
  have hsc : 1 ≤ scale L := by
    unfold scale
    have := Real.log_nonneg (x := ((2 * (L * L) : Nat) : ℝ)) (by
      have := Nat.mul_pos hL0 hL0
      exact_mod_cast (by omega : 1 ≤ 2 * (L * L)))
    linarith
  obtain ⟨hi, h1, h2⟩ : ∃ hi : ℝ, 4 * ((2 * (L * L) : Nat) : ℝ) ≤ hi ∧ 4 * scale L * (rs.length + 2) ≤ hi :=
    ⟨max _ _, le_max_left _ _, le_max_right _ _⟩
  have F0 := fits_double hL0 (hL.trans (by norm_num))
  have F : FitsE (2⁻¹ ^ (52 + 1)) 0 hi L rs.length := by
    refine ⟨⟨hL0, F0.u0, F0.small, by rw [zero_mul]; norm_num, h1⟩, hpos, ?_, h2⟩
    have : (2⁻¹ : ℝ) ^ (52 + 1) * (rs.length + 2) ≤ 2⁻¹ ^ (52 + 1) * (2 ^ 30 + 2) := by gcongr
    norm_num at this ⊢
    linarith
  obtain ⟨qs, data, crit, q1, q2, q3, _, q4, _⟩ := C88_table (env := ⟨so, binArith 52⟩) (N := 2 ^ 52) hv F (binArith_rounded 52 0 hi le_rfl)
    (by omega) (by omega) (binArith_gradual 52) pl ctor hf
  refine ⟨qs, data, crit, q1, q2, q3, q4, ?_, ?_⟩
  · have : (2⁻¹ : ℝ) ^ 53 * (2 * rs.length + 9) ≤ 2⁻¹ ^ 53 * (2 * 2 ^ 30 + 9) := by gcongr
    norm_num at this ⊢
    linarith
  · intro hL' hE' j k p q hjk hk hp hq
    have hE'' : (rs.length : ℝ) ≤ 2 ^ 20 := by exact_mod_cast hE'
    have hLL' : ((L * L : Nat) : ℝ) ≤ 2 ^ 20 := by
      have := Nat.mul_le_mul hL' hL'
      exact_mod_cast (by omega : L * L ≤ 2 ^ 20)
    obtain ⟨_, _, _, _, e1, _⟩ := q4.row j (by omega)
    obtain ⟨_, _, _, _, e2, _⟩ := q4.row k hk
    refine C88_increasing (u := 2⁻¹ ^ 53) (by positivity) q4 ?_ hjk hk e1 e2 ?_ ?_
    · have : (2⁻¹ : ℝ) ^ 53 * (2 * rs.length + 9) * (2 * (L * L : Nat) + 1) ≤ 2⁻¹ ^ 53 * (2 * 2 ^ 20 + 9) * (2 * 2 ^ 20 + 1) := by gcongr
      norm_num at this ⊢
      linarith
    · rw [List.getD_eq_getElem?_getD, e1] at hp; exact hp
    · rw [List.getD_eq_getElem?_getD, e2] at hq; exact hq

/-- The hypotheses hold for a thousand realisations of L2 on the `128 × 128` lattice with any draws. -/
example (ctor : Nat → Nat) (sh : Nat → Nat) (ds : Nat → Draw) : ∃ out, runEnsemble ⟨demoSet, binArith 52⟩ .l2 true 128 ctor
    (List.replicate 1000 ⟨sh, ds, 100000⟩) = .ok out := by
  obtain ⟨qs, data, crit, _, _, h, _⟩ := C88_double (so := demoSet) (v := .l2) (L := 128) (by decide) (rs := List.replicate 1000 ⟨sh, ds, 100000⟩)
    (by norm_num) (by norm_num) (List.ne_nil_of_length_pos (by rw [List.length_replicate]; norm_num)) (by rw [List.length_replicate]; norm_num) true ctor
    (by intro r hr; rw [List.eq_of_mem_replicate hr]; show 5 * (128 * 128) < 100000; norm_num)
  exact ⟨_, h⟩

end SqPerc
