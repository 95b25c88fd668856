import Verif.Proof.Evaluate
import Verif.Props.Demos
import Verif.Props.EndToEnd
import Verif.Props.Launch
/-
C112: what the functions of the project that fix a seed print and write.  The words of the generator are evaluated in Lean (`Proof/TwisterEval`); the
results hold for every set order and every arithmetic, and whatever the generator was used for before.
-/
namespace SqPerc

variable {α : Type} {env : Env α} {so : SetOrder} {L : Nat}

/-- The choices of the first shuffle after `random.seed(key)`: those of an object constructed with `seed=key` (`Perc.newG`). -/
noncomputable def seedDraws (key : Int) (L : Nat) : Nat → Nat := (pyRng.shuffleDraws (L * L - 1) (pyRng.seed key)).1

/-- The choices of the second shuffle: those of a `reset()` of that object (`Perc.resetG`). -/
noncomputable def secondDraws (key : Int) (L : Nat) : Nat → Nat :=
  (pyRng.shuffleDraws (L * L - 1) (pyRng.shuffleDraws (L * L - 1) (pyRng.seed key)).2).1

/-- The placement orders after `random.seed(key)`: that of a new object, and those after each of `n` calls of `reset()`; `m` words are enough. -/
def ordersN (key L n m : Nat) : Option (List (List Nat)) :=
  match Ask.execN (MT.wordsN key m) (Ask.blocks (countdown (L * L)) (n + 1)) with
  | some (as :: bs) => some (pyShuffle (choices (L * L) as) (List.range (L * L)) ::
      shuffleOrders (pyShuffle (choices (L * L) as) (List.range (L * L))) (bs.map (choices (L * L))))
  | _ => none

theorem ordersN_blocks {key n m : Nat} (hk : key < 2 ^ 32) {q : List Nat} {qs : List (List Nat)} (h : ordersN key L n m = some (q :: qs)) :
    ∃ as bs, pyRng.blocks (countdown (L * L)) (n + 1) (pyRng.seed key) = as :: bs ∧ q = pyShuffle (choices (L * L) as) (List.range (L * L)) ∧
      qs = shuffleOrders q (bs.map (choices (L * L))) := by
  rw [ordersN] at h
  cases he : Ask.execN (MT.wordsN key m) (Ask.blocks (countdown (L * L)) (n + 1)) with
  | none => rw [he] at h; cases h
  | some l =>
    rw [he] at h
    cases l with
    | nil => cases h
    | cons as bs =>
      simp only [Option.some.injEq, List.cons.injEq] at h
      obtain ⟨rfl, rfl⟩ := h
      exact ⟨as, bs, by rw [← Ask.run_blocks, Ask.run_seed hk m he], rfl, rfl⟩

/-- The order of an object made with a seed. -/
theorem seeded_order {key n m : Nat} (hk : key < 2 ^ 32) (hL : 0 < L) {q : List Nat} {qs : List (List Nat)} (h : ordersN key L n m = some (q :: qs)) {S : Perc α}
    (e : Perc.new env L (seedDraws key L) = .ok S) : S.siteIds = q := by
  obtain ⟨as, bs, h1, h2, _⟩ := ordersN_blocks hk h
  obtain ⟨rev, e', _⟩ := new_ok env hL (seedDraws key L)
  rw [e] at e'
  rw [Except.ok.inj e', h2]
  show pyShuffle (seedDraws key L) _ = _
  rw [seedDraws, shuffleDraws_pos (Nat.mul_pos hL hL), (List.cons.inj h1).1]

/-- The order after the first `reset()`. -/
theorem second_order {key n m : Nat} (hk : key < 2 ^ 32) (hL : 0 < L) {q q' : List Nat} {qs : List (List Nat)}
    (h : ordersN key L (n + 1) m = some (q :: q' :: qs)) : q' = pyShuffle (secondDraws key L) q := by
  obtain ⟨as, bs, h1, h2, h3⟩ := ordersN_blocks hk h
  obtain ⟨_, h4⟩ := List.cons.inj h1
  rw [← h4] at h3
  rw [secondDraws, shuffleDraws_pos (Nat.mul_pos hL hL), shuffleDraws_pos (Nat.mul_pos hL hL)]
  exact (List.cons.inj h3).1

/-! ### The orders -/

/-- C112: the placement orders of the objects that the demonstration functions construct: percolation_sq_lattice.py:904, 935 and 1021,
percolation_sq_lattice_L0.py:53, 144 and 167, run_py/shortest_path_run.py:12. -/
theorem C112_orders (env : Env α) (g : Nat → Word) :
    (∃ S g', Perc.newG pyRng env 5 (some 0) g = .ok (S, g') ∧
      S.siteIds = [14, 0, 23, 18, 6, 5, 7, 10, 22, 20, 4, 2, 21, 3, 17, 11, 19, 9, 24, 15, 16, 8, 1, 13, 12]) ∧
    (∃ S g', Perc.newG pyRng env 6 (some 0) g = .ok (S, g') ∧ S.siteIds = [0, 19, 14, 21, 22, 17, 33, 30, 7, 5, 10, 13, 35, 1, 28, 23, 8, 3,
      20, 27, 4, 32, 6, 18, 11, 15, 9, 34, 25, 29, 12, 31, 16, 2, 26, 24]) ∧
    (∃ S g', Perc.newG pyRng env 6 (some 18) g = .ok (S, g') ∧ S.siteIds = [0, 4, 23, 1, 25, 18, 32, 12, 33, 24, 17, 35, 13, 19, 2, 34, 26,
      16, 10, 3, 22, 30, 8, 14, 9, 27, 5, 29, 20, 31, 6, 15, 21, 28, 7, 11]) ∧
    (∃ S g', Perc.newG pyRng env 6 (some 310) g = .ok (S, g') ∧ S.siteIds = [0, 7, 14, 8, 24, 33, 26, 1, 20, 19, 21, 17, 22, 2, 3, 23, 34, 30,
      29, 5, 6, 13, 15, 31, 11, 25, 32, 27, 28, 18, 9, 10, 16, 12, 4, 35]) ∧
    (∃ S g', Perc.newG pyRng env 6 (some 41) g = .ok (S, g') ∧ S.siteIds = [29, 5, 20, 3, 25, 13, 6, 1, 19, 31, 27, 11, 15, 16, 2, 32, 26, 4,
      33, 34, 7, 0, 30, 23, 12, 8, 17, 9, 22, 28, 18, 35, 10, 14, 21, 24]) ∧
    ∃ S g', Perc.newG pyRng env 6 (some 72) g = .ok (S, g') ∧ S.siteIds = [3, 34, 30, 13, 9, 18, 2, 6, 16, 5, 8, 15, 20, 28, 1, 17, 27, 14,
      24, 0, 26, 12, 7, 10, 25, 29, 35, 31, 21, 33, 32, 19, 23, 22, 11, 4] := by
  have key : ∀ {k L : Nat} {q : List Nat}, k < 2 ^ 32 → 0 < L → ordersN k L 0 100 = some [q] →
      ∃ S g', Perc.newG pyRng env L (some (k : Int)) g = .ok (S, g') ∧ S.siteIds = q := by
    intro k L q hk hL h
    obtain ⟨S, e, hS⟩ := C72_new (G := pyRng) (env := env) hL (pyRng.seed k)
    refine ⟨S, _, (C72_seed (k : Int) g).trans e, ?_⟩
    obtain ⟨as, bs, h1, h2, _⟩ := ordersN_blocks hk h
    rw [hS, h2, (List.cons.inj h1).1]
  exact ⟨key (k := 0) (by norm_num) (by norm_num) (by decide +kernel), key (k := 0) (by norm_num) (by norm_num) (by decide +kernel),
    key (k := 18) (by norm_num) (by norm_num) (by decide +kernel), key (k := 310) (by norm_num) (by norm_num) (by decide +kernel),
    key (k := 41) (by norm_num) (by norm_num) (by decide +kernel), key (k := 72) (by norm_num) (by norm_num) (by decide +kernel)⟩

/-! ### The demonstration functions -/

/-- The order of the object with `length=6, seed=72`. -/
def order72 : List Nat := [3, 34, 30, 13, 9, 18, 2, 6, 16, 5, 8, 15, 20, 28, 1, 17, 27, 14, 24, 0, 26, 12, 7, 10, 25, 29, 35, 31, 21, 33, 32, 19, 23,
  22, 11, 4]

/-- C112: `run_shortest_path()` (run_py/shortest_path_run.py:9-16) draws the lattice and prints `22 / 36`: with the seed 72 the cluster wraps around
when the 22nd site is placed, and at the same moment it contains a whole column. -/
theorem C112_shortest_path (env : Env α) {fuel : Nat} (hf : 36 < fuel) : ∃ (S S' : Perc α) (t : Text),
    Perc.new env 6 (seedDraws 72 6) = .ok S ∧
    demoShortestPath env 6 fuel (seedDraws 72 6) = .ok (S', [.text t, .values [] [env.ar.div (env.ar.ofNat 22) (env.ar.ofNat 36)]]) ∧
    S'.viewLattice 3 = .ok t ∧ Trace env .sp 6 S' (S.siteIds.take 22) ∧ S'.getPc env = env.ar.div (env.ar.ofNat 22) (env.ar.ofNat 36) := by
  obtain ⟨S, S', t, n, e, h0, hn, e', T, ht, ⟨k, hk, hs⟩, hno⟩ := C75_shortest_path (env := env) (L := 6) (by norm_num) (fuel := fuel) hf (seedDraws 72 6)
  have hS : S.siteIds = order72 := seeded_order (n := 0) (m := 100) (key := 72) (by norm_num) (by norm_num) (qs := []) (by decide +kernel) e
  have hw : wrapsFirst 6 order72 22 = true := by decide +kernel
  obtain ⟨k', post, _, h1, h2, h3, h4, h5, h6⟩ := wrapsFirst_spec hw
  rw [hS] at hk hs hno T e'
  have hge : 22 ≤ n := by
    by_contra hc
    obtain ⟨s, v, hv, w⟩ := hs.1.2
    exact h3 ⟨s, v, hv, w.mono fun x hx => by
      have : order72.take n = (order72.take (22 - 1)).take n := by rw [List.take_take, min_eq_left (by omega)]
      rw [this] at hx
      exact List.mem_of_mem_take hx⟩
  have hle : n ≤ 22 := by
    by_contra hc
    refine hno 21 12 (by omega) (by decide) ⟨⟨by norm_num, ?_⟩, .inr ?_⟩
    · obtain ⟨v, hv, w⟩ := h4
      exact ⟨_, v, hv, w⟩
    · have hcol : ∀ r < 6, ∃ e ∈ cluster 6 (order72.take 22) 12, e.1 = r * 6 + 12 % 6 := by decide +kernel
      intro r hr
      obtain ⟨e, he, her⟩ := hcol r hr
      have w := cluster_walk (by decide) e he
      rw [her] at w
      have hk' : k' = 12 := by
        have : order72.take 22 = order72.take 21 ++ [12] := by decide
        rw [this] at h2
        have := List.append_cancel_left h2
        exact (List.cons.inj this).1.symm
      rw [hk'] at h2 h4
      obtain ⟨v, hv, w'⟩ := h4
      exact ⟨order72.take (22 - 1), 12, [], h2, h3, by rw [← h2]; exact ⟨_, v, hv, w'⟩, w.siteConn⟩
  obtain rfl : n = 22 := by omega
  refine ⟨S, S', t, e, e', ht, hS ▸ T, ?_⟩
  obtain ⟨pre, k0, post0, g1, g2, g3, g4, _⟩ := (C21_critical_values (by norm_num) T).1 (by obtain ⟨v, hv, w⟩ := h4; exact ⟨_, v, hv, w⟩)
  rw [g4]
  have f1 := firstWrap_of (pre0 := []) (post := []) (by rw [List.nil_append]; exact h3) (by
    rw [List.nil_append, ← h2]; obtain ⟨v, hv, w⟩ := h4; exact ⟨_, v, hv, w⟩)
  have f2 := firstWrap_of (pre0 := []) (post := post0) (by rw [List.nil_append]; exact g2) (by
    rw [List.nil_append]; obtain ⟨v, hv, w⟩ := g3; exact ⟨_, v, hv, w⟩)
  rw [← h2, g1, f2, List.nil_append, List.nil_append] at f1
  rw [(Prod.mk.inj (Option.some.inj f1)).1, h5]

/-- The order of the object with `length=6, seed=18`. -/
def order18 : List Nat := [0, 4, 23, 1, 25, 18, 32, 12, 33, 24, 17, 35, 13, 19, 2, 34, 26, 16, 10, 3, 22, 30, 8, 14, 9, 27, 5, 29, 20, 31, 6, 15, 21,
  28, 7, 11]

/-- `test_detect_wrapping()` of percolation_sq_lattice_L0.py:166-196, with the seed 18, prints 19 lines, then the line for `p = 19 / 36` and the
text that the wrapping is detected. -/
theorem detect_l0_lines (env : Env α) {fuel : Nat} (hf : 36 < fuel) (ds : Nat → Draw) : ∃ (S S' : Perc α) (outs : List (Printed α)),
    Perc.new env 6 (seedDraws 18 6) = .ok S ∧ outs.length = 19 ∧
    (∀ j o, outs[j]? = some o → L0Line env 6 (order18.take (j + 1)) o) ∧
    demoDetectL0 env 6 fuel (seedDraws 18 6) ds = .ok (S', outs ++ [.values ["p= ", " entropy ", " order "]
      [env.ar.div (env.ar.ofNat 19) (env.ar.ofNat 36), S'.entropy, ordL env 6 (order18.take 19)],
      .text "Wrapping detected ***************** <<<\n".toList]) ∧
    S'.getPc env = env.ar.div (env.ar.ofNat 19) (env.ar.ofNat 36) := by
  obtain ⟨S, S', outs, e, hq, h3, _⟩ := C75_detect_l0 (env := env) (L := 6) (by norm_num) (fuel := fuel) hf (seedDraws 18 6) ds
  have hS : S.siteIds = order18 := seeded_order (n := 0) (m := 100) (key := 18) (by norm_num) (by norm_num) (qs := []) (by decide +kernel) e
  obtain ⟨pre, k, h4, h5, h6, _, h7⟩ := h3 (by norm_num)
  have hw : wrapsFirst 6 order18 19 = true := by decide +kernel
  obtain ⟨k', post, _, w1, w2, w3, w4, w5, w6⟩ := wrapsFirst_spec hw
  rw [hS, w6] at h4
  obtain ⟨rfl, rfl⟩ : order18.take (19 - 1) = pre ∧ k' = k := by simpa using h4
  have hp : prob env 6 (order18.take (19 - 1) ++ [k']) = env.ar.div (env.ar.ofNat 19) (env.ar.ofNat 36) := by
    rw [prob, List.length_append, List.length_singleton, w5]
  rw [hp] at h6 h7
  rw [← w2] at h6
  exact ⟨S, S', outs, e, by rw [h5, w5], hS ▸ hq, h6, h7⟩

/-- The order of the object with `length=6, seed=310`. -/
def order310 : List Nat := [0, 7, 14, 8, 24, 33, 26, 1, 20, 19, 21, 17, 22, 2, 3, 23, 34, 30, 29, 5, 6, 13, 15, 31, 11, 25, 32, 27, 28, 18, 9, 10, 16,
  12, 4, 35]

theorem messages_at {q : List Nat} {n m : Nat} {pc : α} (hL : 3 ≤ L) (hw : wrapsFirst L q n = true) (h : Messages env L q m pc) :
    m + n = L * L + 1 ∧ pc = env.ar.div (env.ar.ofNat n) (env.ar.ofNat (L * L)) := by
  obtain ⟨k', post, _, w1, w2, w3, w4, w5, w6⟩ := wrapsFirst_spec hw
  obtain ⟨pre, k, h1, h2, _, _, h3⟩ := h.1 hL
  rw [w6] at h1
  obtain ⟨rfl, rfl⟩ : q.take (n - 1) = pre ∧ k' = k := by simpa using h1
  rw [w5] at h2 h3
  exact ⟨h2, h3⟩

/-- C112: `test_relative_index()` of percolation_sq_lattice_L0.py:51-138, with the seed 310, prints `Wrapping detected` 18 times; the critical value of
the object is then `19 / 36`. -/
theorem C112_relative_index_l0 (env : Env α) {fuel : Nat} (hf : 36 < fuel) (ds : Nat → Draw) : ∃ (S S' : Perc α) (outs : List (List (Printed α))),
    Perc.new env 6 (seedDraws 310 6) = .ok S ∧ demoRelativeIndexL0 env 6 fuel (seedDraws 310 6) ds = .ok (S', outs.flatten) ∧ outs.length = 36 ∧
    (outs.flatten.filter Printed.isWrap).length = 18 ∧ S'.getPc env = env.ar.div (env.ar.ofNat 19) (env.ar.ofNat 36) := by
  obtain ⟨S, S', outs, e, e', hl, _, hm⟩ := C75_relative_index_l0 (env := env) (L := 6) (by norm_num) (fuel := fuel) hf (seedDraws 310 6) ds
  have hS : S.siteIds = order310 := seeded_order (n := 0) (m := 100) (key := 310) (by norm_num) (by norm_num) (qs := []) (by decide +kernel) e
  rw [hS] at hm
  obtain ⟨h1, h2⟩ := messages_at (n := 19) (by norm_num) (by decide +kernel) hm
  exact ⟨S, S', outs, e, e', hl, by omega, h2⟩

/-- The orders of the object with `length=6, seed=41` before and after `reset()`. -/
def order41 : List Nat := [29, 5, 20, 3, 25, 13, 6, 1, 19, 31, 27, 11, 15, 16, 2, 32, 26, 4, 33, 34, 7, 0, 30, 23, 12, 8, 17, 9, 22, 28, 18, 35, 10, 14,
  21, 24]

@[inherit_doc order41]
def order41' : List Nat := [31, 15, 9, 2, 28, 12, 4, 7, 26, 11, 21, 32, 20, 6, 22, 8, 16, 17, 33, 0, 29, 34, 1, 27, 10, 35, 13, 30, 24, 14, 3, 5, 19, 18,
  23, 25]

/-- C112: `test_reset_relative_index()` (percolation_sq_lattice_L0.py:141-163), with the seed 41, prints `Wrapping detected` 16 times before the reset and
21 times after it; the critical values are `21 / 36` and `16 / 36`. -/
theorem C112_reset_relative_index (env : Env α) {fuel : Nat} (hf : 36 < fuel) (ds ds' : Nat → Draw) :
    ∃ (S1 S2 S3 : Perc α) (outs outs' : List (List (Printed α))), S1.reset env .l0 (secondDraws 41 6) = .ok S2 ∧
    demoResetRelativeIndex env 6 fuel (seedDraws 41 6) ds (secondDraws 41 6) ds' = .ok (S3, outs.flatten ++ .text resetText :: outs'.flatten) ∧
    (outs.flatten.filter Printed.isWrap).length = 16 ∧ (outs'.flatten.filter Printed.isWrap).length = 21 ∧
    S1.getPc env = env.ar.div (env.ar.ofNat 21) (env.ar.ofNat 36) ∧ S3.getPc env = env.ar.div (env.ar.ofNat 16) (env.ar.ofNat 36) := by
  obtain ⟨S, S1, S2, S3, outs, outs', e, e1, hs, e', _, _, _, _, m1, m2⟩ := C75_reset_relative_index (env := env) (L := 6) (by norm_num) (fuel := fuel) hf
    (seedDraws 41 6) (secondDraws 41 6) ds ds'
  have ho : ordersN 41 6 1 150 = some [order41, order41'] := by decide +kernel
  have hS : S.siteIds = order41 := seeded_order (key := 41) (by norm_num) (by norm_num) ho e
  have hS2 : S2.siteIds = order41' := by rw [hs, hS]; exact (second_order (key := 41) (by norm_num) (by norm_num) ho).symm
  rw [hS] at m1
  rw [hS2] at m2
  obtain ⟨a1, a2⟩ := messages_at (n := 21) (by norm_num) (by decide +kernel) m1
  obtain ⟨b1, b2⟩ := messages_at (n := 16) (by norm_num) (by decide +kernel) m2
  exact ⟨S1, S2, S3, outs, outs', e1, e', by omega, by omega, a2, b2⟩

/-! ### `run_simulations()` -/

/-- What `run_simulations()` writes to the file of critical values: for every realisation the number of sites at which it wraps, and the numbers of sites
and bonds of the cluster that wraps. -/
def simulationsRows : List (Nat × Nat × Nat) := [
  (15, 15, 40), (13, 11, 32), (14, 14, 41), (12, 9, 26), (13, 13, 37), (14, 12, 35), (15, 14, 40), (9, 9, 27), (13, 13, 37), (14, 13, 37),
  (12, 11, 32), (13, 13, 38), (14, 14, 40), (15, 14, 41), (16, 13, 34), (16, 14, 37), (16, 16, 46), (17, 17, 46), (12, 10, 28), (16, 16, 45),
  (13, 12, 32), (14, 12, 33), (14, 12, 35), (16, 15, 39), (12, 11, 32), (10, 10, 30), (11, 11, 33), (17, 17, 47), (16, 12, 35), (16, 16, 46),
  (13, 12, 33), (14, 14, 40), (14, 14, 41), (16, 16, 45), (15, 15, 44), (16, 15, 42), (12, 9, 26), (11, 11, 33), (15, 15, 44), (14, 14, 40),
  (14, 14, 40), (13, 11, 32), (14, 8, 24), (16, 15, 40), (11, 9, 26), (15, 15, 42), (10, 9, 26), (13, 12, 32), (14, 12, 35), (18, 18, 47),
  (14, 11, 32), (16, 16, 46), (12, 12, 35), (15, 13, 38), (13, 13, 38), (13, 12, 36), (13, 13, 38), (12, 11, 32), (13, 13, 37), (15, 13, 38),
  (12, 12, 35), (9, 5, 15), (14, 14, 40), (16, 16, 45), (12, 12, 34), (14, 13, 39), (16, 16, 44), (14, 12, 35), (16, 16, 45), (16, 16, 46),
  (13, 13, 37), (15, 15, 43), (15, 15, 43), (14, 14, 40), (15, 12, 36), (14, 11, 32), (12, 10, 29), (16, 16, 42), (13, 10, 30), (15, 15, 45),
  (14, 14, 41), (13, 11, 33), (14, 14, 40), (12, 6, 18), (9, 8, 24), (15, 13, 35), (14, 14, 40), (12, 10, 30), (13, 11, 33), (12, 11, 32),
  (11, 11, 31), (12, 9, 26), (16, 16, 44), (14, 12, 34), (15, 15, 41), (14, 14, 42), (12, 10, 29), (15, 15, 40), (15, 15, 43), (14, 14, 40)]

/-- The numbers of a row are those of the order. -/
def rowIs (L : Nat) (q : List Nat) (r : Nat × Nat × Nat) : Bool :=
  wrapsFirst L q r.1 && match q.drop (r.1 - 1) with
  | [] => false
  | k :: _ => whole L (q.take r.1) k && decide ((clusterSites L (q.take r.1) k).dedup.length = r.2.1) &&
      decide ((clusterBonds L (q.take r.1) k).dedup.length = r.2.2)

def rowsAre (L : Nat) : List (List Nat) → List (Nat × Nat × Nat) → Bool
  | [], [] => true
  | q :: qs, r :: rs => rowIs L q r && rowsAre L qs rs
  | _, _ => false

theorem rowIs_crit (hL : 3 ≤ L) {q : List Nat} {r : Nat × Nat × Nat} (h : rowIs L q r = true) {c : CritRow ℝ} (hc : CritOf L q c) :
    c = ⟨(r.1 : ℝ) / (L * L : Nat), r.2.1, r.2.2⟩ := by
  rw [rowIs, Bool.and_eq_true] at h
  obtain ⟨hw, h⟩ := h
  obtain ⟨k, post, _, w1, w2, w3, w4, w5, w6⟩ := wrapsFirst_spec hw
  have hd : q.drop (r.1 - 1) = k :: post := List.append_cancel_left (as := q.take (r.1 - 1)) (by rw [List.take_append_drop]; exact w1)
  rw [hd] at h
  simp only [Bool.and_eq_true, decide_eq_true_eq] at h
  obtain ⟨⟨h1, h2⟩, h3⟩ := h
  rw [CritOf, if_pos hL] at hc
  obtain ⟨pre, k', post', c1, c2, c3, c4, c5, c6⟩ := hc
  have f := firstWrap_of (pre0 := []) (post := post') (by rw [List.nil_append]; exact c2) (by rw [List.nil_append]; exact c3)
  rw [← c1, w6, List.nil_append] at f
  obtain ⟨rfl, rfl⟩ := Prod.mk.inj (Option.some.inj f)
  rw [← w2, whole_sites h1, List.card_toFinset, h2] at c5
  rw [← w2, whole_bonds h1, List.card_toFinset, h3] at c6
  rw [w5] at c4
  obtain ⟨c1, c2, c3⟩ := c
  dsimp only at c4 c5 c6
  rw [c4, c5, c6]

theorem rowsAre_crit (hL : 3 ≤ L) {qs : List (List Nat)} {rs : List (Nat × Nat × Nat)} (h : rowsAre L qs rs = true) {cs : List (CritRow ℝ)}
    (hc : List.Forall₂ (CritOf L) qs cs) : cs = rs.map fun r => ⟨(r.1 : ℝ) / (L * L : Nat), r.2.1, r.2.2⟩ := by
  induction hc generalizing rs with
  | nil => cases rs with
    | nil => rfl
    | cons => cases h
  | cons hc _ ih => cases rs with
    | nil => cases h
    | cons r rs =>
      rw [rowsAre, Bool.and_eq_true] at h
      rw [List.map_cons, ← rowIs_crit hL h.1 hc, ← ih h.2]

/-- The placement orders of the 100 realisations; each is written as one number with the sites as its digits in base 25, lowest digit first. -/
def simulationsCodes : List Nat := [
  49500262220461691909864847336804396, 29057528594706423341141057893712292, 23515517895091949129466446035821252, 19843367415500103993776327069568732,
  74613449505468521074352141781941148, 84474443434278213773922371382999828, 26449168968134687166283996150972740, 26285552235486815319532755469430436,
  79513641526483406139114323434164252, 47291490787071220978174238035732908, 83182743431306872238899714607026596, 59031726265163651281535109147584580,
  73573648949663944484089443514869852, 10471361029352833925455538792128164, 4247621611196652975052458881359788, 85870300463571489009554455026924180,
  36027737514750744892547307492120684, 76765997556807884165439346379655852, 20219808217097076176427641688982596, 82245837740296938333731424748000860,
  87182628977058655034506523881295028, 7062103719318421115896388588198820, 39189234054849624961794449193650604, 32012699727865821296147105859944196,
  33129888214777186257562892010353388, 46313659470025149425218324230502596, 86531989000879804835755910988792588, 36341601516475814383937170031064228,
  74994701760775965832403355052795020, 74388639318577238029336335118841724, 23289683977573142504827000570999116, 82350267761942894924811921047274588,
  62432243669765036135032356541228668, 53046166363940841440268627296034468, 23249068656656645048663646222487908, 31358042869279038847996206886870812,
  20840631107236406905461744706049868, 7272026533625907296110345069731636, 58714236389031463036002549441005172, 73581523730318081016174074525805132,
  83723450671471933019179094494733988, 88547780925052886936451442627584516, 27637133354347259772065776901882508, 2935264888372218687508309842533340,
  76768622497912642618646507348586516, 27358522726182573488857818331684020, 45966684663612291595562701667901228, 83953897039608464897718513498220116,
  79173977308985404561169050299844668, 42761783262240076255471908851206836, 54027253543553916424065619105511844, 53015152118303281019478357000685908,
  2627840020736891946410736954210588, 6051119973063628878237768529924212, 12522137828830115230042523619538044, 78499738028149708703518416489711924,
  80944258111210891705537892042171700, 1264925703586308383911539452678244, 15673902215126960345451197510804820, 77023375854670528763816535880305420,
  82918178707471481994539712134107380, 59967354285912511386280688490898812, 10406169371924381184552944016138684, 40238722218667788424448727359018772,
  34634193103401928928239180924436412, 32229607364648227638412318911991500, 12672446934618484310973152822814180, 19553668998865180736030507815021332,
  62376148489329751764531224041859628, 81514213236976418902243411011347724, 41565211960419986996942939216967996, 27273460893077195031320532599258844,
  37311327459272644920547121900096100, 76664944634222005846877201084857692, 1854180819291350452862682113086932, 14025563568571795899069884252938236,
  79485777128185100898187971551336316, 75615366662767552717182123666436500, 70535400301874086938196298251144116, 61683366930721333243379664409633908,
  56920948120712235800025134661813972, 9590332539185295794027501817171444, 6852569418709074181538334082157796, 85955142847963401767560109409231516,
  3497653847325441606935459243647764, 18320314064764181704557307979031060, 24723105637263897950091799605902388, 22461510520955915964657181112000580,
  21082381786845789339908551275610956, 57532116489945242910335578813842108, 61239357739544833376732608877844276, 70094157964103501930207648164228836,
  46176508116823810076098203289973028, 86333039844556749517371439114534188, 57544500297453068955652507716320676, 16836191311339958962176120184516044,
  7245066222490142706759600447753540, 48764983946922531546520448819316012, 81768034213751222624129507676504108, 72064398951202885810542894127330860]

/-- The `k` lowest digits of `n` in base `N`. -/
def digitsOf (N : Nat) : Nat → Nat → List Nat
  | 0, _ => []
  | k + 1, n => n % N :: digitsOf N k (n / N)

/-- The placement orders of the 100 realisations. -/
def simulationsOrders : List (List Nat) := simulationsCodes.map (digitsOf 25 25)

/-- The orders that the seed gives after the first. -/
def ordersAre (m : Nat) (qs : List (List Nat)) : Bool := match ordersN 0 5 100 m with
  | some (_ :: qs') => decide (qs' = qs)
  | _ => false

theorem simulationsOrders_true : ordersAre 3750 simulationsOrders = true := by decide +kernel

/-- Ten of the elements. -/
def part {β : Type} (k : Nat) (l : List β) : List β := (l.drop (10 * k)).take 10

theorem part_drop {β : Type} (k : Nat) (l : List β) : part k (l.drop 10) = part (k + 1) l := by
  unfold part
  rw [List.drop_drop, Nat.add_comm, Nat.mul_succ]

theorem rowsAre_split (n : Nat) : ∀ {qs : List (List Nat)} {rs : List (Nat × Nat × Nat)}, rowsAre L (qs.take n) (rs.take n) = true →
    rowsAre L (qs.drop n) (rs.drop n) = true → rowsAre L qs rs = true := by
  induction n with
  | zero => intro qs rs _ h; exact h
  | succ n ih =>
    intro qs rs h1 h2
    cases qs with
    | nil => cases rs with
      | nil => rfl
      | cons => cases h1
    | cons q qs => cases rs with
      | nil => cases h1
      | cons r rs =>
        rw [List.take_succ_cons, List.take_succ_cons, rowsAre, Bool.and_eq_true] at h1
        rw [rowsAre, Bool.and_eq_true]
        exact ⟨h1.1, ih h1.2 h2⟩

theorem rowsAre_parts (n : Nat) : ∀ {qs : List (List Nat)} {rs : List (Nat × Nat × Nat)}, qs.length ≤ 10 * n → rs.length ≤ 10 * n →
    (∀ k < n, rowsAre L (part k qs) (part k rs) = true) → rowsAre L qs rs = true := by
  induction n with
  | zero =>
    intro qs rs h1 h2 _
    rw [List.length_eq_zero_iff.1 (Nat.le_zero.1 h1), List.length_eq_zero_iff.1 (Nat.le_zero.1 h2)]
    rfl
  | succ n ih =>
    intro qs rs h1 h2 h
    refine rowsAre_split 10 (h 0 (Nat.succ_pos n)) (ih (by rw [List.length_drop]; omega) (by rw [List.length_drop]; omega) fun k hk => ?_)
    rw [part_drop, part_drop]
    exact h (k + 1) (by omega)

theorem rows_part0 : rowsAre 5 (part 0 simulationsOrders) (part 0 simulationsRows) = true := by decide +kernel
theorem rows_part1 : rowsAre 5 (part 1 simulationsOrders) (part 1 simulationsRows) = true := by decide +kernel
theorem rows_part2 : rowsAre 5 (part 2 simulationsOrders) (part 2 simulationsRows) = true := by decide +kernel
theorem rows_part3 : rowsAre 5 (part 3 simulationsOrders) (part 3 simulationsRows) = true := by decide +kernel
theorem rows_part4 : rowsAre 5 (part 4 simulationsOrders) (part 4 simulationsRows) = true := by decide +kernel
theorem rows_part5 : rowsAre 5 (part 5 simulationsOrders) (part 5 simulationsRows) = true := by decide +kernel
theorem rows_part6 : rowsAre 5 (part 6 simulationsOrders) (part 6 simulationsRows) = true := by decide +kernel
theorem rows_part7 : rowsAre 5 (part 7 simulationsOrders) (part 7 simulationsRows) = true := by decide +kernel
theorem rows_part8 : rowsAre 5 (part 8 simulationsOrders) (part 8 simulationsRows) = true := by decide +kernel
theorem rows_part9 : rowsAre 5 (part 9 simulationsOrders) (part 9 simulationsRows) = true := by decide +kernel

theorem simulationsRows_true : rowsAre 5 simulationsOrders simulationsRows = true := by
  refine rowsAre_parts 10 (by decide +kernel) (by decide +kernel) fun k hk => ?_
  match k, hk with
  | 0, _ => exact rows_part0
  | 1, _ => exact rows_part1
  | 2, _ => exact rows_part2
  | 3, _ => exact rows_part3
  | 4, _ => exact rows_part4
  | 5, _ => exact rows_part5
  | 6, _ => exact rows_part6
  | 7, _ => exact rows_part7
  | 8, _ => exact rows_part8
  | 9, _ => exact rows_part9

theorem simulations_of {m : Nat} {orders : List (List Nat)} {rows : List (Nat × Nat × Nat)} (ho' : ordersAre m orders = true) (hrows : rowsAre 5 orders rows = true)
    (hr0 : 0 < rows.length) {fuel : Nat} (hf : 125 < fuel) (g : Nat → Word) (t : Stamp) : ∃ d : List (List ℝ), d.length = 5 * 5 ∧
    (∀ k < 5 * 5, d[k]? = some [((k + 1 : Nat) : ℝ) / (5 * 5 : Nat), meanOver orders (fun q => shannon 5 (· ∈ q.take (k + 1))),
      meanOver orders (fun q => (seqLargest 5 (q.take (k + 1)) : ℝ) / (2 * (5 * 5) : Nat)),
      meanOver orders (fun q => (seqWrapping 5 (q.take (k + 1)) : ℝ) / (2 * (5 * 5) : Nat))]) ∧
    runSimulations pyRng (realEnv so) true fuel g t = .ok [(fileName .l0 .entropyOrder 5 t (some 0), .table 100 d),
      (fileName .l0 .criticalValues 5 t (some 0), .critical 100 (rows.map fun r => ⟨(r.1 : ℝ) / (5 * 5 : Nat), r.2.1, r.2.2⟩))] := by
  rw [ordersAre] at ho'
  cases ho : ordersN 0 5 100 m with
  | none => rw [ho] at ho'; cases ho'
  | some l =>
    rw [ho] at ho'
    cases l with
    | nil => cases ho'
    | cons q qs =>
      have hcheck : rowsAre 5 qs rows = true := by rw [of_decide_eq_true ho']; exact hrows
      obtain ⟨as, bs, h1, h2, h3⟩ := ordersN_blocks (by norm_num) ho
      obtain ⟨as', bs', g1, g2⟩ := C72_ensemble (G := pyRng) (env := realEnv so) (v := .l0) rfl (L := 5) (by norm_num) false fuel 100
        (fun _ => ⟨0, 0⟩) (some 0) g
      have := g1.symm.trans h1
      obtain ⟨rfl, rfl⟩ := List.cons.inj this
      have hf' : ∀ r ∈ runsOf (5 * 5) fuel (fun _ => ⟨0, 0⟩) bs', 5 * (5 * 5) < r.fuel := by
        intro r hr
        obtain ⟨_, _, rfl⟩ := List.mem_map.1 hr
        exact hf
      have hne : runsOf (5 * 5) fuel (fun _ => ⟨0, 0⟩) bs' ≠ [] := by
        intro h
        rw [runsOf, List.map_eq_nil_iff] at h
        subst h
        rw [h3] at hcheck
        cases rows with
        | nil => cases hr0
        | cons => cases hcheck
      obtain ⟨table, crit, e, _, _, hc⟩ := exact_table (so := so) (v := .l0) (by decide) (by norm_num) false (choices (5 * 5) as') hne hf'
        (orders_l0 (realEnv so) (by norm_num) (choices (5 * 5) as') hne hf')
      have hq : shuffleOrders (pyShuffle (choices (5 * 5) as') (List.range (5 * 5))) ((runsOf (5 * 5) fuel (fun _ => ⟨0, 0⟩) bs').map (·.shuffle)) = qs := by
        rw [h3, h2, runsOf, List.map_map]
        rfl
      rw [hq] at hc
      obtain ⟨t1, t2⟩ := exact_rows (so := so) (v := .l0) (by decide) (by norm_num) false (choices (5 * 5) as') hne hf'
        (orders_l0 (realEnv so) (by norm_num) (choices (5 * 5) as') hne hf') e
      rw [hq, of_decide_eq_true ho'] at t2
      refine ⟨table, t1, t2, ?_⟩
      simp only [runSimulations]
      rw [g2, e, rowsAre_crit (by norm_num) hcheck hc]
      rfl

end SqPerc
