import Verif.Props.Twister
/-
Property C111: the words of the Mersenne Twister over all states.
-/
namespace SqPerc

open MT TwisterSpec MeasureTheory

variable {α β : Type} {L E : Nat} {v : Variant}

/-- The state that is about to renew its block `x`; so is the state after `random.seed`. -/
def blockState (x : Fin 624 → Word) : State := ⟨List.ofFn fun i => BitVec.ofFin (x i), 624⟩

theorem blockState_valid (x : Fin 624 → Word) : (blockState x).Valid := by
  unfold State.Valid blockState
  simp only [List.length_ofFn, le_refl, and_self]

/-- If a map takes every value equally often, it does not change averages. -/
theorem meanOf_fibres {X V : Type} [Fintype X] [Fintype V] (f : X → V) {c : Nat} (hc : 0 < c) (h : ∀ v, Nat.card {x // f x = v} = c) (F : V → ℝ) :
    meanOf (fun x => F (f x)) = meanOf F := by
  classical
  have hcard : ∀ v, (Finset.univ.filter fun x => f x = v).card = c := by
    intro v
    rw [← h v, Nat.card_eq_fintype_card, Fintype.card_subtype]
  have hs : ∀ G : V → ℝ, ∑ x, G (f x) = c * ∑ v, G v := by
    intro G
    rw [← Finset.sum_fiberwise Finset.univ f, Finset.mul_sum]
    refine Finset.sum_congr rfl fun v _ => ?_
    rw [Finset.sum_congr rfl (g := fun _ => G v) fun x hx => by rw [(Finset.mem_filter.1 hx).2], Finset.sum_const, nsmul_eq_mul, hcard]
  have hX : (Fintype.card X : ℝ) = c * Fintype.card V := by
    have := hs fun _ => 1
    simpa using this
  unfold meanOf
  rw [hs, hX, mul_div_mul_left _ _ (by positivity)]

theorem temper_bij : Function.Bijective temper := Finite.injective_iff_bijective.1 fun _ _ => temper_inj

/-- The word that a member of the recurrence puts out. -/
noncomputable def putEquiv : W ≃ Word := (Equiv.ofBijective temper temper_bij).trans ⟨BitVec.toFin, BitVec.ofFin, fun _ => rfl, fun _ => rfl⟩

theorem putEquiv_apply (y : W) : putEquiv y = (temper y).toFin := rfl

theorem card_words (t : Nat) (v : Fin 623 → Word) :
    Nat.card {x : Fin 624 → Word // (fun i : Fin 623 => words (blockState x) (t + i)) = v} = 2 ^ 32 := by
  rw [← card_line (623 + t) fun i => putEquiv.symm (v i)]
  have key : ∀ x : Fin 624 → W, (fun i : Fin 623 => words (blockState fun i => (x i).toFin) (t + i)) = v ↔
      (window (List.ofFn x) (623 + t)).2 = fun i => putEquiv.symm (v i) := by
    intro x
    have e : ∀ i : Fin 623, words (blockState fun i => (x i).toFin) (t + i) = putEquiv ((window (List.ofFn x) (623 + t)).2 i) := by
      intro i
      rw [words_line (blockState_valid _), putEquiv_apply]
      have e1 : 623 + t + 1 + i.1 = 624 + (t + i.1) := by omega
      have e2 : (window (List.ofFn x) (623 + t)).2 i = line (List.ofFn x) (624 + (t + i.1)) := by rw [← e1]; rfl
      have e3 : (blockState fun i => (x i).toFin).mt = List.ofFn x := by unfold blockState; congr 1
      have e4 : (blockState fun i => (x i).toFin).index = 624 := by unfold blockState; rfl
      rw [e2, e3, e4]
    constructor
    · intro h
      funext i
      rw [← h, Equiv.eq_symm_apply]
      exact (e i).symm
    · intro h
      funext i
      rw [e, h, Equiv.apply_symm_apply]
  refine Nat.card_congr {
    toFun := fun x => ⟨fun i => BitVec.ofFin (x.1 i), (key _).1 x.2⟩
    invFun := fun x => ⟨fun i => (x.1 i).toFin, (key _).2 x.2⟩
    left_inv := fun x => rfl
    right_inv := fun x => rfl }

/-- C111: any 623 consecutive words are equidistributed.  Over all blocks of 624 words, the 623 words put out from the `t`-th on take every
value for the same number of blocks, `2³²`; so averages over blocks of a function of these words are averages over independent uniform words. -/
theorem C111_uniform (t : Nat) :
    (∀ v : Fin 623 → Word, Nat.card {x : Fin 624 → Word // (fun i : Fin 623 => words (blockState x) (t + i)) = v} = 2 ^ 32) ∧
    ∀ h : (Fin 623 → Word) → ℝ, meanOf (fun x : Fin 624 → Word => h fun i => words (blockState x) (t + i)) = meanOf h := by
  exact ⟨card_words t, meanOf_fibres _ (by norm_num) (card_words t)⟩

/-- C111 in terms of probabilities: an event that depends on 623 consecutive words happens for the fraction of the blocks that is its probability under
independent uniform words. -/
theorem C111_measure (t : Nat) (A : (Fin 623 → Word) → Prop) :
    uniformWords {w | A fun i => w i} = ENNReal.ofReal (meanOf fun x : Fin 624 → Word => ind (A fun i => words (blockState x) (t + i))) := by
  rw [uniformWords_first, (C111_uniform t).2 fun v => ind (A v)]

/-- C111: a computation that asks for at most `d` random numbers.  Over all blocks of the generator an event about its result has, up to
`2ᵈ · (3/4)⁶²³`, the probability that it has for uniform independent answers. -/
theorem C111_law {d : Nat} {p : Ask β} (hp : p.Fits d) (B : Set β) :
    |(meanOf fun x : Fin 624 → Word => ind ((p.run pyRng (words (blockState x))).1 ∈ B)) - p.mean fun b => ind (b ∈ B)| ≤ 2 ^ d * (3 / 4) ^ 623 := by
  have i0 : ∀ P : Prop, 0 ≤ ind P := fun P => by unfold ind; split <;> norm_num
  have i1 : ∀ P : Prop, ind P ≤ 1 := fun P => by unfold ind; split <;> norm_num
  have first : ∀ (C : Set β), meanOf (fun x : Fin 624 → Word => ind (∃ b ∈ C, Ask.exec (List.ofFn fun i : Fin 623 => words (blockState x) (0 + i)) p = some b)) =
      Ask.part 623 (fun b => ind (b ∈ C)) p := by
    intro C
    rw [(C111_uniform 0).2 fun v => ind (∃ b ∈ C, Ask.exec (List.ofFn v) p = some b)]
    unfold Ask.part
    refine meanOf_congr fun x => ?_
    cases he : Ask.exec (List.ofFn x) p with
    | none => simp [ind, Ask.score]
    | some c =>
      show _ = ind (c ∈ C)
      congr 1
      exact propext ⟨fun ⟨b, h1, h2⟩ => by rw [Option.some.inj h2]; exact h1, fun h => ⟨c, h, rfl⟩⟩
  have hrun : ∀ x b, Ask.exec (List.ofFn fun i : Fin 623 => words (blockState x) (0 + i)) p = some b → (p.run pyRng (words (blockState x))).1 = b := by
    intro x b h
    simp only [Nat.zero_add] at h
    exact Ask.run_of_exec _ 623 h
  have lo : Ask.part 623 (fun b => ind (b ∈ B)) p ≤ meanOf fun x : Fin 624 → Word => ind ((p.run pyRng (words (blockState x))).1 ∈ B) := by
    rw [← first B]
    refine meanOf_le fun x => ind_mono ?_
    rintro ⟨b, hb, he⟩
    rw [hrun x b he]
    exact hb
  have lo' : Ask.part 623 (fun b => ind (b ∈ Bᶜ)) p ≤ meanOf fun x : Fin 624 → Word => ind ((p.run pyRng (words (blockState x))).1 ∈ Bᶜ) := by
    rw [← first Bᶜ]
    refine meanOf_le fun x => ind_mono ?_
    rintro ⟨b, hb, he⟩
    rw [hrun x b he]
    exact hb
  have hcomp : ∀ P : Prop, ind (¬ P) = 1 - ind P := by
    intro P
    unfold ind
    by_cases h : P <;> simp [h]
  have e1 : (meanOf fun x : Fin 624 → Word => ind ((p.run pyRng (words (blockState x))).1 ∈ Bᶜ)) =
      1 - meanOf fun x : Fin 624 → Word => ind ((p.run pyRng (words (blockState x))).1 ∈ B) := by
    rw [← meanOf_const (ι := Fin 624 → Word) 1, ← meanOf_sub]
    exact meanOf_congr fun x => hcomp _
  have b1 := (Ask.part_bounds (fun b => i0 (b ∈ B)) (fun b => i1 _) 623 hp).1
  have b2 := (Ask.part_bounds (fun b => i0 (b ∈ B)) (fun b => i1 _) 623 hp).2
  have b3 := Ask.part_miss 623 hp
  have e2 : Ask.part 623 (fun b => ind (b ∈ B)) p + Ask.part 623 (fun b => ind (b ∈ Bᶜ)) p = Ask.part 623 (fun _ => 1) p := by
    unfold Ask.part
    rw [← meanOf_add]
    refine meanOf_congr fun x => ?_
    cases Ask.exec (List.ofFn x) p with
    | none => exact add_zero 0
    | some c =>
      show ind (c ∈ B) + ind (¬ c ∈ B) = 1
      rw [hcomp]; ring
  rw [e1] at lo'
  generalize (2 : ℝ) ^ d * (3 / 4) ^ 623 = ε at b1 b3 ⊢
  rw [abs_le]
  constructor <;> linarith

/-- C111, a concrete size of the error: with at most 195 requests, as for one lattice of length up to 14, it is below `2⁻⁶³`. -/
theorem C111_error {d : Nat} (hd : d ≤ 195) : (2 : ℝ) ^ d * (3 / 4) ^ 623 ≤ 1 / 2 ^ 63 := by
  have h1 : (2 : ℝ) ^ d ≤ 2 ^ 195 := pow_le_pow_right₀ (by norm_num) hd
  have h2 : (3 ^ 623 * 2 ^ 258 : Nat) ≤ 4 ^ 623 := by decide +kernel
  have h3 : (3 : ℝ) ^ 623 * 2 ^ 258 ≤ 4 ^ 623 := by exact_mod_cast h2
  have h4 : (3 / 4 : ℝ) ^ 623 ≤ 1 / 2 ^ 258 := by
    rw [div_pow, div_le_div_iff₀ (by positivity) (by positivity), one_mul]
    exact h3
  refine (mul_le_mul h1 h4 (by positivity) (by positivity)).trans (le_of_eq ?_)
  rw [show 258 = 195 + 63 from rfl, pow_add]
  field_simp

theorem new_event (seed : Int → Nat → Word) (env : Env α) (hL : 0 < L) (Q : Set (List Nat)) (w : Nat → Word) :
    (∃ S w', Perc.newG (wordRng seed) env L none w = .ok (S, w') ∧ S.siteIds ∈ Q) ↔
      ((Ask.all (countdown (L * L))).run (wordRng seed) w).1 ∈ {as | pyShuffle (choices (L * L) as) (List.range (L * L)) ∈ Q} := by
  obtain ⟨S, e1, e2⟩ := C72_new (G := wordRng seed) (env := env) hL w
  rw [Ask.run_all]
  constructor
  · rintro ⟨S', w', h1, h2⟩
    rw [e1] at h1
    have : S = S' := congrArg Prod.fst (Except.ok.inj h1)
    rw [← this, e2] at h2
    exact h2
  · intro h
    exact ⟨S, _, e1, by rw [e2]; exact h⟩

/-- C111: a new object of length at most 14, over all blocks of the generator.  An event about the order of its sites happens for a fraction of the blocks
that differs by less than `2⁻⁶³` from its probability when all orders are equally likely. -/
theorem C111_new (env : Env α) (hL : 0 < L) (hL14 : L ≤ 14) (Q : Set (List Nat)) :
    |(meanOf fun x : Fin 624 → Word => ind (∃ S w', Perc.newG pyRng env L none (words (blockState x)) = .ok (S, w') ∧ S.siteIds ∈ Q)) -
      meanOf fun y : DrawVec (L * L) => ind (pyShuffle y.draws (List.range (L * L)) ∈ Q)| ≤ 1 / 2 ^ 63 := by
  have hLL : L * L ≤ 14 * 14 := Nat.mul_le_mul hL14 hL14
  have hf := Ask.fits_all (countdown_fits (N := L * L) (by omega))
  have hlen : (countdown (L * L)).length ≤ 195 := by
    have : (countdown (L * L)).length = L * L - 1 := by simp [countdown]
    omega
  have h := C111_law hf {as | pyShuffle (choices (L * L) as) (List.range (L * L)) ∈ Q}
  have e1 : (meanOf fun x : Fin 624 → Word => ind (∃ S w', Perc.newG pyRng env L none (words (blockState x)) = .ok (S, w') ∧ S.siteIds ∈ Q)) =
      meanOf fun x : Fin 624 → Word => ind (((Ask.all (countdown (L * L))).run pyRng (words (blockState x))).1 ∈
        {as | pyShuffle (choices (L * L) as) (List.range (L * L)) ∈ Q}) := by
    refine meanOf_congr fun x => congrArg ind (propext ?_)
    exact new_event _ env hL Q _
  have e2 := mean_shuffle (fun d => ind (pyShuffle d (List.range (L * L)) ∈ Q)) (L * L)
  rw [e1, ← e2]
  exact h.trans (C111_error hlen)

/-- C111: small ensembles.  For L0 with `L² - 1` requests per realisation and one more set for the construction, any event about the tables that
`run_ensemble_entropy_order` and its variants compute happens for a fraction of the blocks that differs by at most `2^((E+1)(L²-1)) · (3/4)⁶²³` from its
probability for uniform independent choices. -/
theorem C111_plain (env : Env α) (hv : v.plain = true) (hL : 0 < L) (hL2 : L * L < 2 ^ 32) (pl : Bool) (fuel : Nat) (steps : Nat → Draw)
    (B : Set (Py (List (List α) × List (CritRow α)))) :
    |(meanOf fun x : Fin 624 → Word => ind (runEnsembleG pyRng env v pl fuel L E none (words (blockState x)) ∈ B)) -
      meanOf fun x0 : DrawVec (L * L) => meanOf fun x : Fin E → DrawVec (L * L) => ind (runEnsemble env v pl L x0.draws (ensembleDraws steps fuel x) ∈ B)| ≤
      2 ^ ((E + 1) * (L * L - 1)) * (3 / 4) ^ 623 := by
  have hlen : (countdown (L * L)).length = L * L - 1 := by simp [countdown]
  have hf := Ask.fits_blocks (countdown_fits hL2) (E + 1)
  rw [hlen] at hf
  let F := fun (d : Nat → Nat) (ds : List (Nat → Nat)) => runEnsemble env v pl L d (ds.map fun d => ⟨d, steps, fuel⟩)
  let C : Set (List (List Nat)) := {bs | F ((bs.map (choices (L * L))).headD fun _ => 0) (bs.map (choices (L * L))).tail ∈ B}
  have h := C111_law hf C
  have e1 : ∀ w, runEnsembleG pyRng env v pl fuel L E none w ∈ B ↔ ((Ask.blocks (countdown (L * L)) (E + 1)).run pyRng w).1 ∈ C := by
    intro w
    obtain ⟨as, bs, h1, h2⟩ := C72_ensemble (G := pyRng) (env := env) hv hL pl fuel E steps none w
    rw [Ask.run_blocks, h1, h2, runsOf]
    show _ ↔ runEnsemble env v pl L (choices (L * L) as) ((bs.map (choices (L * L))).map fun d => ⟨d, steps, fuel⟩) ∈ B
    rw [List.map_map]
    rfl
  have e2 : (Ask.blocks (countdown (L * L)) (E + 1)).mean (fun b => ind (b ∈ C)) =
      meanOf fun x0 : DrawVec (L * L) => meanOf fun x : Fin E → DrawVec (L * L) => ind (runEnsemble env v pl L x0.draws (ensembleDraws steps fuel x) ∈ B) := by
    refine (mean_shuffles (E + 1) fun l => ind (F (l.headD fun _ => 0) l.tail ∈ B)).trans ?_
    rw [meanOf_cons]
    refine meanOf_congr fun x0 => meanOf_congr fun x => ?_
    simp only [List.ofFn_succ, Fin.cons_zero, Fin.cons_succ, List.headD_cons, List.tail_cons, F, ensembleDraws, List.map_ofFn, Function.comp_def]
  rw [e2] at h
  simp only [e1]
  exact h

/-! ### The number of sequences -/

/-- A state in which the generator can be found: `index` is never 0 between two calls. -/
def MT.State.Live (g : State) : Prop := g.mt.length = 624 ∧ 1 ≤ g.index ∧ g.index ≤ 624

/-- The words that follow a window. -/
noncomputable def future (s : MT.Window) (i : Nat) : Word := (temper ((slide^[i] s).2 0)).toFin

theorem words_future {g : State} (h : g.Live) : words g = future (window g.mt (g.index - 1)) := by
  obtain ⟨h1, h2, h3⟩ := h
  funext i
  rw [words_line (And.intro h1 h3)]
  unfold future
  rw [window_eq g.mt (g.index - 1), ← Function.iterate_add_apply, ← window_eq]
  congr 2
  show _ = line g.mt (i + (g.index - 1) + 1 + 0)
  congr 1
  omega

theorem card_windows : Nat.card MT.Window = 2 ^ 19937 := by
  rw [Nat.card_prod, Nat.card_fun]
  have hW : Nat.card W = 2 ^ 32 := by
    rw [Nat.card_congr (⟨BitVec.toFin, BitVec.ofFin, fun _ => rfl, fun _ => rfl⟩ : W ≃ Fin (2 ^ 32)), Nat.card_eq_fintype_card, Fintype.card_fin]
  rw [hW, Nat.card_eq_fintype_card, Fintype.card_bool, Nat.card_eq_fintype_card, Fintype.card_fin, ← pow_mul, mul_comm, ← pow_succ]

/-- C111: the states that occur stay so, and seeding gives one of them. -/
theorem C111_live : (∀ k, (seed k).Live ∧ pyRng.seed k = words (seed k)) ∧ ∀ g : State, g.Live → (next g).2.Live := by
  refine ⟨fun k => ⟨?_, rfl⟩, fun g h => ?_⟩
  · have h := initByArray_valid (keyOf k.natAbs)
    refine And.intro h.1 ?_
    show 1 ≤ (initByArray (keyOf k.natAbs)).index ∧ (initByArray (keyOf k.natAbs)).index ≤ 624
    rw [initByArray_index]
    omega
  · obtain ⟨h1, h2, h3⟩ := h
    have hv := (next_line (And.intro h1 h3)).1
    refine And.intro hv.1 (And.intro ?_ hv.2)
    obtain ⟨mt, n⟩ := g
    by_cases hc : 624 ≤ n
    · rw [next_renew hc]
    · rw [next_keep hc]
      exact Nat.le_add_left 1 n

theorem slide_next (s : MT.Window) {j : Nat} (hj : j + 1 < 623) : (slide s).2 ⟨j, by omega⟩ = s.2 ⟨j + 1, hj⟩ := by
  have h : j < 622 := by omega
  unfold slide
  simp only [dif_pos h]

theorem slide_ahead (s : MT.Window) : ∀ (j : Nat) (hj : j < 623), s.2 ⟨j, hj⟩ = (slide^[j] s).2 0
  | 0, _ => rfl
  | j + 1, hj => by rw [Function.iterate_succ_apply, ← slide_next s hj, slide_ahead (slide s) j (by omega)]

theorem future_inj : Function.Injective future := by
  intro s s' h
  have h0 : ∀ i, (slide^[i] s).2 0 = (slide^[i] s').2 0 := fun i => temper_inj (BitVec.toFin_inj.1 (congrFun h i))
  refine slide_inj (Prod.ext ?_ (funext fun j => ?_))
  · show (s.2 0).getLsbD 31 = (s'.2 0).getLsbD 31
    rw [show s.2 0 = s'.2 0 from h0 0]
  · have := h0 (j.1 + 1)
    rw [Function.iterate_succ_apply, Function.iterate_succ_apply, ← slide_ahead (slide s) j.1 j.2, ← slide_ahead (slide s') j.1 j.2] at this
    exact this

theorem future_reached (s : MT.Window) : ∃ g : State, g.Live ∧ g.index = 624 ∧ words g = future s := by
  obtain ⟨s0, hs0⟩ := (slide_bij.iterate 623).2 s
  let x : Fin 624 → W := put (if s0.1 then 0x80000000#32 else 0#32) s0.2
  have hx : window (List.ofFn x) 0 = s0 := by
    rw [window_ofFn]
    refine Prod.ext ?_ (funext fun j => put_succ (if s0.1 then 0x80000000#32 else 0#32) s0.2 j)
    show (if s0.1 then 0x80000000#32 else 0#32 : W).getLsbD 31 = s0.1
    cases s0.1 <;> decide
  have hlive : (⟨List.ofFn x, 624⟩ : State).Live := by
    unfold MT.State.Live
    simp only [List.length_ofFn, le_refl, and_true, true_and]
    norm_num
  refine ⟨⟨List.ofFn x, 624⟩, hlive, by simp only, ?_⟩
  rw [words_future hlive]
  simp only
  rw [show 624 - 1 = 623 from rfl, window_eq, hx, hs0]

/-- C111: the generator puts out one of exactly `2¹⁹⁹³⁷` sequences of words. -/
theorem C111_sequences : {w : Nat → Word | ∃ g : State, g.Live ∧ words g = w}.ncard = 2 ^ 19937 := by
  have e : {w : Nat → Word | ∃ g : State, g.Live ∧ words g = w} = future '' Set.univ := by
    rw [Set.image_univ]
    ext w
    constructor
    · rintro ⟨g, hg, rfl⟩
      exact ⟨_, (words_future hg).symm⟩
    · rintro ⟨s, rfl⟩
      obtain ⟨g, h1, _, h2⟩ := future_reached s
      exact ⟨g, h1, h2⟩
  rw [e, Set.ncard_image_of_injective _ future_inj, Set.ncard_univ, card_windows]

/-- C111: from any state that occurs the words are the tempered members of the recurrence that starts with the block of the state. -/
theorem C111_state {g : State} (h : g.Live) : ∃ x, Recurs x ∧ (∀ p (hp : p < g.mt.length), x p = g.mt[p]) ∧
    ∀ i, Puts (x (g.index + i)) (BitVec.ofFin (words g i)) := by
  obtain ⟨h1, h2, h3⟩ := h
  refine ⟨line g.mt, line_follows _, fun p hp => ?_, fun i => ?_⟩
  · rw [line_lt (by omega)]
    exact List.getD_eq_getElem _ _ hp
  · rw [words_line (And.intro h1 h3)]
    exact ⟨_, _, _, rfl, rfl, rfl, rfl⟩

theorem _root_.Function.Injective.returns {X : Type} [Finite X] {f : X → X} (hf : Function.Injective f) (s : X) :
    ∃ P, 0 < P ∧ P ≤ Nat.card X ∧ f^[P] s = s := by
  have main : ∀ a b, a < b → b ≤ Nat.card X → f^[a] s = f^[b] s → ∃ P, 0 < P ∧ P ≤ Nat.card X ∧ f^[P] s = s := by
    intro a b hlt hb e
    refine ⟨b - a, Nat.sub_pos_of_lt hlt, (Nat.sub_le b a).trans hb, hf.iterate a ?_⟩
    rw [← Function.iterate_add_apply, Nat.add_sub_cancel' hlt.le, e]
  by_contra hc
  have hinj : Function.Injective fun a : Fin (Nat.card X + 1) => f^[a.1] s := by
    intro a b hab
    by_contra hne
    have hne' : a.1 ≠ b.1 := fun h => hne (Fin.ext h)
    rcases lt_or_gt_of_ne hne' with h1 | h1
    · exact hc (main a.1 b.1 h1 (Nat.lt_succ_iff.1 b.2) hab)
    · exact hc (main b.1 a.1 h1 (Nat.lt_succ_iff.1 a.2) hab.symm)
  have := Nat.card_le_card_of_injective _ hinj
  rw [Nat.card_eq_fintype_card (α := Fin _), Fintype.card_fin] at this
  omega

/-- C111: the words come back: every sequence is periodic from its beginning on. -/
theorem C111_periodic {g : State} (h : g.Live) : ∃ P, 0 < P ∧ P ≤ 2 ^ 19937 ∧ ∀ i, words g (i + P) = words g i := by
  obtain ⟨P, h1, h2, h3⟩ := slide_inj.returns (window g.mt (g.index - 1))
  rw [card_windows] at h2
  refine ⟨P, h1, h2, fun i => ?_⟩
  rw [words_future h]
  unfold future
  rw [Function.iterate_add_apply, h3]

/-- C111: on lattices of length 46 and more some orders of the sites never occur, whatever the seed and the state of the generator. -/
theorem C111_orders (env : Env α) (hL : 46 ≤ L) : ∃ q : List Nat, q.Perm (List.range (L * L)) ∧
    ∀ g : State, g.Live → ∀ S w', Perc.newG pyRng env L none (words g) = .ok (S, w') → S.siteIds ≠ q := by
  by_contra hc
  push Not at hc
  have hL0 : 0 < L := by omega
  have hreach : ∀ q : List Nat, q.Perm (List.range (L * L)) → ∃ s : MT.Window, pyShuffle (choices (L * L) (pyRng.answers (countdown (L * L)) (future s)).1) (List.range (L * L)) = q := by
    intro q hq
    obtain ⟨g, hg, S, w', h1, h2⟩ := hc q hq
    obtain ⟨S', e1, e2⟩ := C72_new (G := pyRng) (env := env) hL0 (words g)
    rw [e1] at h1
    have : S' = S := congrArg Prod.fst (Except.ok.inj h1)
    refine ⟨window g.mt (g.index - 1), ?_⟩
    rw [← words_future hg, ← e2, this, h2]
  have hperm : ∀ σ : Equiv.Perm (Fin (L * L)), (List.ofFn fun i => (σ i).1).Perm (List.range (L * L)) := by
    intro σ
    have h1 : (List.ofFn fun i => (σ i).1) = (List.ofFn σ).map Fin.val := by rw [List.map_ofFn]; rfl
    have h2 : List.range (L * L) = (List.ofFn (id : Fin (L * L) → Fin (L * L))).map Fin.val := by
      rw [List.map_ofFn]
      exact List.ext_getElem (by simp) (by simp)
    rw [h1, h2]
    refine List.Perm.map _ ?_
    exact Equiv.Perm.ofFn_comp_perm σ id
  choose f hf using fun σ => hreach _ (hperm σ)
  have hinj : Function.Injective f := by
    intro σ τ h
    have := hf σ
    rw [h, hf τ] at this
    have h3 := List.ofFn_injective this
    exact Equiv.ext fun i => Fin.ext (congrFun h3 i).symm
  have hcard := Nat.card_le_card_of_injective f hinj
  rw [card_windows, Nat.card_eq_fintype_card, Fintype.card_perm, Fintype.card_fin] at hcard
  have hmono : (46 * 46).factorial ≤ (L * L).factorial := Nat.factorial_le (Nat.mul_le_mul hL hL)
  have hbig : 2 ^ 19937 < (46 * 46).factorial := by decide +kernel
  exact absurd (hmono.trans hcard) (not_le.2 hbig)

/-- The hypotheses are met by states after seeding. -/
example : ∃ g : State, g.Live ∧ words g = pyRng.seed 42 := ⟨seed 42, (C111_live.1 42).1, (C111_live.1 42).2.symm⟩

/-- For exactly one block in `2³²` the first word is 7. -/
example : (meanOf fun x : Fin 624 → Word => ind (words (blockState x) 0 = 7)) = 1 / 2 ^ 32 := by
  refine ((C111_uniform 0).2 fun v => ind (v 0 = 7)).trans ?_
  have h := meanOf_fibres (fun v : Fin 623 → Word => v 0) (c := (2 ^ 32) ^ 622) (by positivity) (fun a => ?_) fun a => ind (a = 7)
  · rw [h]
    have e : ∑ i : Word, ind (i = 7) = 1 := by
      rw [Finset.sum_eq_single (7 : Word)]
      · rw [ind, if_pos rfl]
      · intro b _ hb
        rw [ind, if_neg hb]
      · exact fun h => absurd (Finset.mem_univ _) h
    unfold meanOf
    rw [e, Fintype.card_fin]
    norm_num
  · have e : {v : Fin 623 → Word // v 0 = a} ≃ (Fin 622 → Word) := {
      toFun := fun v i => v.1 i.succ
      invFun := fun u => ⟨Fin.cons (α := fun _ : Fin (622 + 1) => Word) a u, rfl⟩
      left_inv := by
        rintro ⟨v, rfl⟩
        exact Subtype.ext (Fin.cons_self_tail (α := fun _ : Fin (622 + 1) => Word) v)
      right_inv := fun u => rfl }
    rw [Nat.card_congr e, Nat.card_eq_fintype_card, Fintype.card_fun, Fintype.card_fin, Fintype.card_fin]

end SqPerc
