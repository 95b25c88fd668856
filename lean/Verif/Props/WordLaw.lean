import Verif.Proof.Words
import Verif.Props.Requests
import Verif.Props.Uniform
import Verif.Props.EndToEnd
/-
Property C108: the results when the generator puts out independent uniform 32-bit words and the numbers are made from them as CPython does.
-/
namespace SqPerc

open MeasureTheory

variable {α β γ σ : Type} {L E : Nat} {v : Variant} {so : SetOrder}

/-! ### Computations that ask for numbers -/

namespace Ask

theorem run_bind (G : Rng σ) (g : β → Ask γ) : ∀ (p : Ask β) (s : σ), (p.bind g).run G s = (g (p.run G s).1).run G (p.run G s).2
  | ret _, _ => rfl
  | ask _ k, s => run_bind G g (k _) _

theorem mean_bind (g : β → Ask γ) (f : γ → ℝ) (p : Ask β) : (p.bind g).mean f = p.mean fun b => (g b).mean f := by
  induction p with
  | ret b => rfl
  | ask n k ih =>
    show (∑ i ∈ Finset.range n, ((k i).bind g).mean f) / n = (∑ i ∈ Finset.range n, (k i).mean fun b => (g b).mean f) / n
    rw [Finset.sum_congr rfl fun i _ => ih i]

theorem Fits.mono {d e : Nat} {p : Ask β} (h : p.Fits d) (hde : d ≤ e) : p.Fits e := by
  induction p generalizing d e with
  | ret b => cases e <;> trivial
  | ask n k ih =>
    cases d with
    | zero => exact h.elim
    | succ d =>
      cases e with
      | zero => omega
      | succ e => exact ⟨h.1, h.2.1, fun i hi => ih i (h.2.2 i hi) (by omega)⟩

theorem Fits.bind {d e : Nat} {p : Ask β} {g : β → Ask γ} (h : p.Fits d) (hg : ∀ b, (g b).Fits e) : (p.bind g).Fits (d + e) := by
  induction p generalizing d with
  | ret b => exact (hg b).mono (by omega)
  | ask n k ih =>
    cases d with
    | zero => exact h.elim
    | succ d =>
      rw [show d + 1 + e = d + e + 1 by omega]
      exact ⟨h.1, h.2.1, fun i hi => ih i (h.2.2 i hi)⟩

theorem fits_ret {d : Nat} (b : β) : (ret b).Fits d := by cases d <;> trivial

theorem mean_zero (p : Ask β) : (p.mean fun _ => 0) = 0 := by
  induction p with
  | ret b => rfl
  | ask n k ih =>
    show (∑ i ∈ Finset.range n, (k i).mean fun _ => 0) / n = _
    rw [Finset.sum_congr rfl fun i _ => ih i, Finset.sum_const_zero, zero_div]

/-- The answers to a list of requests. -/
def all : List Nat → Ask (List Nat)
  | [] => ret []
  | n :: ns => ask n fun a => (all ns).bind fun as => ret (a :: as)

theorem run_all (G : Rng σ) : ∀ (ns : List Nat) (g : σ), (all ns).run G g = G.answers ns g
  | [], _ => rfl
  | n :: ns, g => by
    show ((all ns).bind fun as => ret ((G.below n g).1 :: as)).run G (G.below n g).2 = _
    rw [run_bind, run_all G ns]
    rfl

theorem fits_all : ∀ {ns : List Nat}, (∀ n ∈ ns, 0 < n ∧ n < 2 ^ 32) → (all ns).Fits ns.length
  | [], _ => trivial
  | n :: ns, h => by
    refine ⟨(h n List.mem_cons_self).1, (h n List.mem_cons_self).2, fun i _ => ?_⟩
    exact ((fits_all fun m hm => h m (List.mem_cons_of_mem _ hm)).bind (e := 0) fun _ => fits_ret _).mono (by omega)

/-- The answers to the same list of requests made several times. -/
def blocks (reqs : List Nat) : Nat → Ask (List (List Nat))
  | 0 => ret []
  | m + 1 => (all reqs).bind fun as => (blocks reqs m).bind fun bs => ret (as :: bs)

theorem run_blocks (G : Rng σ) (reqs : List Nat) : ∀ (m : Nat) (g : σ), ((blocks reqs m).run G g).1 = G.blocks reqs m g
  | 0, _ => rfl
  | m + 1, g => by
    simp only [blocks, run_bind, run_all, Rng.blocks]
    rw [← run_blocks G reqs m]
    rfl

theorem fits_blocks {reqs : List Nat} (h : ∀ n ∈ reqs, 0 < n ∧ n < 2 ^ 32) : ∀ m, (blocks reqs m).Fits (m * reqs.length)
  | 0 => fits_ret _
  | m + 1 => by
    have := (fits_all h).bind (g := fun as => (blocks reqs m).bind fun bs => ret (as :: bs)) (e := m * reqs.length + 0) fun as =>
      (fits_blocks h m).bind fun _ => fits_ret _
    exact this.mono (by rw [Nat.succ_mul]; omega)

end Ask

theorem countdown_fits {N : Nat} (hN : N < 2 ^ 32) : ∀ n ∈ countdown N, 0 < n ∧ n < 2 ^ 32 := by
  intro n hn
  simp only [countdown, List.mem_reverse, List.mem_range'_1] at hn
  omega

/-- The average over the answers to the requests of a shuffle. -/
theorem mean_shuffle (h : (Nat → Nat) → ℝ) : ∀ N, (Ask.all (countdown N)).mean (fun as => h (choices N as)) = meanOf fun x : DrawVec N => h x.draws
  | 0 => by
    show h (choices 0 []) = _
    rw [← meanOf_const (ι := DrawVec 0) (h (choices 0 []))]
    refine meanOf_congr fun x => congrArg h ?_
    funext j
    simp [choices, DrawVec.draws]
  | 1 => by
    show h (choices 1 []) = _
    rw [← meanOf_const (ι := DrawVec 1) (h (choices 1 []))]
    refine meanOf_congr fun x => congrArg h ?_
    funext j
    unfold choices DrawVec.draws
    split
    · rename_i hj
      have : (x ⟨j, hj⟩).1 < j + 1 := (x ⟨j, hj⟩).2
      rw [List.getD_nil]
      omega
    · rfl
  | i + 2 => by
    have hc : ∀ (a : Nat) (as : List Nat), choices (i + 2) (a :: as) = fun j => if j = i + 1 then a else choices (i + 1) as j := by
      intro a as
      funext j
      unfold choices
      by_cases h1 : j = i + 1
      · subst h1
        simp
      · rw [if_neg h1]
        by_cases h2 : j < i + 1
        · rw [if_pos h2, if_pos (by omega), show i + 2 - 1 - j = (i - j) + 1 by omega, List.getD_cons_succ]
          rfl
        · rw [if_neg h2, if_neg (by omega)]
    have e : meanOf (fun x : DrawVec (i + 2) => h x.draws) =
        (∑ a ∈ Finset.range (i + 2), meanOf fun y : DrawVec (i + 1) => h fun j => if j = i + 1 then a else y.draws j) / (i + 2 : Nat) := by
      have e1 : ∑ x : DrawVec (i + 2), h x.draws = ∑ p : Fin (i + 2) × DrawVec (i + 1), h fun j => if j = i + 1 then p.1.1 else p.2.draws j := by
        refine (Fintype.sum_equiv (Fin.snocEquiv fun j : Fin (i + 2) => Fin (j.1 + 1)) _ _ fun p => congrArg h ?_).symm
        funext j
        unfold DrawVec.draws
        by_cases h1 : j = i + 1
        · subst h1
          rw [if_pos rfl, dif_pos (by omega)]
          show p.1.1 = (Fin.snoc (α := fun j : Fin (i + 2) => Fin (j.1 + 1)) p.2 p.1 (Fin.last (i + 1))).1
          rw [Fin.snoc_last]
        · rw [if_neg h1]
          by_cases h2 : j < i + 1
          · rw [dif_pos h2, dif_pos (by omega)]
            show _ = (Fin.snoc (α := fun j : Fin (i + 2) => Fin (j.1 + 1)) p.2 p.1 (Fin.castSucc ⟨j, h2⟩)).1
            rw [Fin.snoc_castSucc]
          · rw [dif_neg h2, dif_neg (by omega)]
      unfold meanOf
      rw [e1, Fintype.sum_prod_type, DrawVec.card, DrawVec.card, Nat.factorial_succ, Finset.sum_range, ← Finset.sum_div, div_div]
      push_cast
      rw [mul_comm, show (i : ℝ) + 1 + 1 = i + 2 by ring]
    rw [e, countdown_succ]
    show (∑ a ∈ Finset.range (i + 2), ((Ask.all (countdown (i + 1))).bind fun as => Ask.ret (a :: as)).mean _) / _ = _
    congr 1
    refine Finset.sum_congr rfl fun a _ => ?_
    rw [Ask.mean_bind, ← mean_shuffle (fun d => h fun j => if j = i + 1 then a else d j) (i + 1)]
    congr 1
    funext as
    show h (choices (i + 2) (a :: as)) = _
    rw [hc]

/-- The average over the answers to the requests of several shuffles. -/
theorem mean_shuffles {N : Nat} : ∀ (E : Nat) (h : List (Nat → Nat) → ℝ),
    (Ask.blocks (countdown N) E).mean (fun bs => h (bs.map (choices N))) = meanOf fun x : Fin E → DrawVec N => h (List.ofFn fun i => (x i).draws)
  | 0, h => by
    show h [] = _
    rw [← meanOf_const (ι := Fin 0 → DrawVec N) (h [])]
    exact meanOf_congr fun x => by rw [List.ofFn_zero]
  | E + 1, h => by
    simp only [Ask.blocks, Ask.mean_bind]
    rw [meanOf_cons]
    simp only [List.ofFn_succ, Fin.cons_zero, Fin.cons_succ]
    rw [← mean_shuffle fun d => meanOf fun ys : Fin E → DrawVec N => h (d :: List.ofFn fun i => (ys i).draws)]
    · congr 1
      funext as
      rw [← mean_shuffles E fun l => h (choices N as :: l)]
      rfl

/-! ### C108: the numbers -/

/-- C108, the algorithm: for `n` with `k` binary digits the answer is made of the upper `k` bits of the first of the coming words for which these
bits are a number below `n`; the words before it are lost and those after it come next. -/
theorem C108_request (seed : Int → Nat → Word) {n k t : Nat} (h1 : 2 ^ (k - 1) ≤ n) (h2 : n < 2 ^ k) (w : Nat → Word) (ht : (w t).1 / 2 ^ (32 - k) < n)
    (hs : ∀ s < t, n ≤ (w s).1 / 2 ^ (32 - k)) : (wordRng seed).below n w = ((w t).1 / 2 ^ (32 - k), fun i => w (t + (i + 1))) := by
  have hk : n.size = k := by
    refine le_antisymm (Nat.size_le.2 h2) ?_
    by_contra hlt
    have := Nat.size_le.1 (show n.size ≤ k - 1 by omega)
    omega
  have h : ∃ t, getBits n.size (w t) < n := ⟨t, by rw [hk]; exact ht⟩
  show randBelow n w = _
  rw [randBelow, dif_pos h]
  have e : Nat.find h = t := by
    rw [Nat.find_eq_iff, hk]
    exact ⟨ht, fun s hst => not_lt.2 (hs s hst)⟩
  rw [e, hk]
  refine Prod.ext rfl (funext fun i => ?_)
  show w (t + 1 + i) = w (t + (i + 1))
  rw [show t + 1 + i = t + (i + 1) by omega]

/-- C108: a request for a number below `n` is answered with each of `0, …, n - 1` with probability `1/n`, whatever `n`. -/
theorem C108_below (seed : Int → Nat → Word) {n i : Nat} (hn : n < 2 ^ 32) (hi : i < n) :
    uniformWords {w | ((wordRng seed).below n w).1 = i} = ENNReal.ofReal (1 / n) := by
  classical
  have h := Ask.law seed (p := Ask.ask n Ask.ret) (d := 1) ⟨by omega, hn, fun _ _ => Ask.fits_ret _⟩ {i}
  refine h.trans (congrArg _ ?_)
  show (∑ j ∈ Finset.range n, ind (j ∈ ({i} : Set Nat))) / n = _
  rw [Finset.sum_eq_single i]
  · rw [ind, if_pos (Set.mem_singleton i)]
  · intro j _ hj
    rw [ind, if_neg fun h : j ∈ ({i} : Set Nat) => hj h]
  · intro hi'
    exact absurd (Finset.mem_range.2 hi) hi'

/-- C108: the answers to any fixed list of requests are independent and uniform: each possible list of answers has the same probability. -/
theorem C108_answers (seed : Int → Nat → Word) : ∀ {ns as : List Nat}, (∀ n ∈ ns, n < 2 ^ 32) → List.Forall₂ (· < ·) as ns →
    uniformWords {w | ((wordRng seed).answers ns w).1 = as} = ENNReal.ofReal (1 / (ns.prod : Nat)) := by
  classical
  have key : ∀ {ns as : List Nat}, List.Forall₂ (· < ·) as ns → (Ask.all ns).mean (fun b => ind (b = as)) = 1 / (ns.prod : Nat) := by
    intro ns as h
    induction h with
    | nil => simp [Ask.all, Ask.mean, ind]
    | @cons a n as ns ha _ ih =>
      show (∑ j ∈ Finset.range n, ((Ask.all ns).bind fun bs => Ask.ret (j :: bs)).mean _) / n = _
      rw [Finset.sum_eq_single a]
      · rw [Ask.mean_bind]
        have : (fun bs : List Nat => (Ask.ret (a :: bs)).mean fun b => ind (b = a :: as)) = fun bs => ind (bs = as) := by
          funext bs
          show ind (a :: bs = a :: as) = _
          congr 1
          simp
        rw [this, ih, List.prod_cons]
        push_cast
        rw [div_div, mul_comm]
      · intro j _ hj
        rw [Ask.mean_bind]
        have : (fun bs : List Nat => (Ask.ret (j :: bs)).mean fun b => ind (b = a :: as)) = fun _ => 0 := by
          funext bs
          show ind (j :: bs = a :: as) = _
          rw [ind, if_neg fun e => hj (List.cons.inj e).1]
        rw [this, Ask.mean_zero]
      · intro h'
        exact absurd (Finset.mem_range.2 ha) h'
  intro ns as hns h
  have hf : ∀ n ∈ ns, 0 < n ∧ n < 2 ^ 32 := by
    intro n hn
    refine ⟨?_, hns n hn⟩
    obtain ⟨a, _, ha⟩ : ∃ a ∈ as, a < n := by
      clear hns key
      induction h with
      | nil => cases hn
      | cons h1 _ ih =>
        rcases List.mem_cons.1 hn with rfl | hn
        · exact ⟨_, List.mem_cons_self, h1⟩
        · obtain ⟨a, h2, h3⟩ := ih hn
          exact ⟨a, List.mem_cons_of_mem _ h2, h3⟩
    omega
  have := Ask.law seed (Ask.fits_all hf) {as}
  simp only [Ask.run_all] at this
  exact this.trans (congrArg _ (key h))

/-- C108: a new object has each of the `(L²)!` orders of the sites with the same probability, `1/(L²)!`. -/
theorem C108_new (seed : Int → Nat → Word) (env : Env α) (hL : 0 < L) (hL2 : L * L < 2 ^ 32) {q : List Nat} (hq : q.Perm (List.range (L * L))) :
    uniformWords {w | ∃ S w', Perc.newG (wordRng seed) env L none w = .ok (S, w') ∧ S.siteIds = q} = ENNReal.ofReal (1 / (L * L).factorial) := by
  classical
  have e : ∀ w, (∃ S w', Perc.newG (wordRng seed) env L none w = .ok (S, w') ∧ S.siteIds = q) ↔
      ((Ask.all (countdown (L * L))).run (wordRng seed) w).1 ∈ {as | pyShuffle (choices (L * L) as) (List.range (L * L)) = q} := by
    intro w
    obtain ⟨S, e1, e2⟩ := C72_new (G := wordRng seed) (env := env) hL w
    rw [Ask.run_all]
    constructor
    · rintro ⟨S', w', h1, h2⟩
      rw [e1] at h1
      have : S = S' := congrArg Prod.fst (Except.ok.inj h1)
      rw [← this] at h2
      exact e2.symm.trans h2
    · intro h
      exact ⟨S, _, e1, e2.trans h⟩
  simp only [e]
  rw [Ask.law seed (Ask.fits_all (countdown_fits hL2))]
  congr 1
  have := mean_shuffle (fun d => ind (pyShuffle d (List.range (L * L)) = q)) (L * L)
  refine Eq.trans this ?_
  have hb := C57_shuffle_bijective (l := List.range (L * L)) List.nodup_range hq
  rw [List.length_range] at hb
  obtain ⟨x, hx, hu⟩ := hb
  unfold meanOf
  rw [Finset.sum_eq_single x, DrawVec.card]
  · rw [ind, if_pos hx]
  · intro y _ hy
    rw [ind, if_neg fun h => hy (hu y h)]
  · intro h
    exact absurd (Finset.mem_univ x) h

/-! ### C108: the results of L0 and of the shortest-path class -/

theorem law_shuffles (seed : Int → Nat → Word) {N : Nat} (hN : N < 2 ^ 32) (F : (Nat → Nat) → List (Nat → Nat) → β) {R : (Nat → Word) → β}
    (hR : ∀ w, ∃ as bs, (wordRng seed).blocks (countdown N) (E + 1) w = as :: bs ∧ R w = F (choices N as) (bs.map (choices N))) (B : Set β) :
    uniformWords {w | R w ∈ B} =
      ENNReal.ofReal (meanOf fun x0 : DrawVec N => meanOf fun x : Fin E → DrawVec N => ind (F x0.draws (List.ofFn fun i => (x i).draws) ∈ B)) := by
  have e : ∀ w, R w ∈ B ↔ ((Ask.blocks (countdown N) (E + 1)).run (wordRng seed) w).1 ∈
      {bs | F ((bs.map (choices N)).headD fun _ => 0) (bs.map (choices N)).tail ∈ B} := by
    intro w
    obtain ⟨as, bs, h1, h2⟩ := hR w
    rw [Ask.run_blocks, h1, h2]
    rfl
  simp only [e]
  rw [Ask.law seed (Ask.fits_blocks (countdown_fits hN) (E + 1))]
  congr 1
  refine (mean_shuffles (E + 1) fun l => ind (F (l.headD fun _ => 0) l.tail ∈ B)).trans ?_
  rw [meanOf_cons]
  refine meanOf_congr fun x0 => meanOf_congr fun x => ?_
  simp only [List.ofFn_succ, Fin.cons_zero, Fin.cons_succ, List.headD_cons, List.tail_cons]

/-- C108 for L0, from the words to the results: any event about the results of the ensemble has under uniform words the probability that it has when
the choices of the shuffles are uniform and independent of each other. -/
theorem C108_plain (seed : Int → Nat → Word) (env : Env α) (hv : v.plain = true) (hL : 0 < L) (hL2 : L * L < 2 ^ 32) (pl : Bool) (fuel : Nat)
    (steps : Nat → Draw) (B : Set (Py (List (List α) × List (CritRow α)))) :
    uniformWords {w | runEnsembleG (wordRng seed) env v pl fuel L E none w ∈ B} =
      ENNReal.ofReal (meanOf fun x0 : DrawVec (L * L) => meanOf fun x : Fin E → DrawVec (L * L) =>
        ind (runEnsemble env v pl L x0.draws (ensembleDraws steps fuel x) ∈ B)) := by
  rw [law_shuffles (E := E) seed hL2 (fun d ds => runEnsemble env v pl L d (ds.map fun d => ⟨d, steps, fuel⟩)) (fun w => ?_) B]
  · simp only [ensembleDraws, List.map_ofFn, Function.comp_def]
  · obtain ⟨as, bs, h1, h2⟩ := C72_ensemble (G := wordRng seed) (env := env) hv hL pl fuel E steps none w
    refine ⟨as, bs, h1, h2.trans ?_⟩
    rw [runsOf, List.map_map]
    rfl

/-- C108 for the shortest-path class. -/
theorem C108_path (seed : Int → Nat → Word) (env : Env α) (hL : 0 < L) (hL2 : L * L < 2 ^ 32) (fuel : Nat) (steps : Nat → Draw)
    (B : Set (Py (List (α × α)))) :
    uniformWords {w | spEnsembleG (wordRng seed) env fuel L E none w ∈ B} =
      ENNReal.ofReal (meanOf fun x0 : DrawVec (L * L) => meanOf fun x : Fin E → DrawVec (L * L) =>
        ind (spEnsemble env L x0.draws (ensembleDraws steps fuel x) ∈ B)) := by
  rw [law_shuffles (E := E) seed hL2 (fun d ds => spEnsemble env L d (ds.map fun d => ⟨d, steps, fuel⟩)) (fun w => ?_) B]
  · simp only [ensembleDraws, List.map_ofFn, Function.comp_def]
  · obtain ⟨as, bs, h1, h2⟩ := C72_sp_ensemble (G := wordRng seed) (env := env) hL fuel E steps none w
    refine ⟨as, bs, h1, h2.trans ?_⟩
    rw [runsOf, List.map_map]
    rfl

/-- C108 for L0, from the words to the files.  `L ≤ 10⁴`, up to `4 · 10⁵` realisations, Python's floats.  With a probability of at least
`1 - 6 L² exp(-2Eε²)` over the words that the generator puts out, the program ends without an exception and every entry of its file of averages,
read back, is closer than `ε + 10⁻⁹ + 2.5 · 10⁻¹⁴ L²` times the range of its column to the exact average over all configurations.  With a probability
of at least `1 - 2 exp(-2Eε²)` the mean of the thresholds in its file of critical values is closer than `ε + 10⁻¹⁰` to the mean threshold. -/
theorem C108_files (seed : Int → Nat → Word) {lg : Dbl → Dbl} (hlg : Dbl.GoodLog lg (2⁻¹ ^ 52)) (hL0 : 0 < L) (hL : L ≤ 10 ^ 4) (hE0 : 0 < E)
    (hE : E ≤ 4 * 10 ^ 5) (pl : Bool) {fuel : Nat} (hf : 5 * (L * L) < fuel) {header : Text} (hh : '\n' ∉ header) (n : Int) {ε : ℝ} (hε : 0 < ε) :
    ∃ m : Nat → Nat → ℝ,
      (∀ k < L * L, m k 1 = micro (L * L) (k + 1) (fun T => shannon L (· ∈ T)) ∧
        m k 2 = micro (L * L) (k + 1) (fun T => ((bondComps L (· ∈ T)).sup Finset.card : ℕ) / (2 * (L * L) : Nat))) ∧
      uniformWords {w | ¬∃ data crit T, runEnsembleG (wordRng seed) ⟨so, Dbl.arith lg⟩ .l0 pl fuel L E none w = .ok (data, crit) ∧
        readTable (saveWith Dbl.fmt header ((FileData.table n data).rows ⟨so, Dbl.arith lg⟩)) = some T ∧
        ∀ k < L * L, ∀ c, 1 ≤ c → c < 4 → |fileEntry T k c - m k c| < (ε + fileTol L) * colRange L c} ≤
        ENNReal.ofReal (6 * (L * L : Nat) * Real.exp (-(2 * E * ε ^ 2))) ∧
      (3 ≤ L → uniformWords {w | ¬∃ data crit C, runEnsembleG (wordRng seed) ⟨so, Dbl.arith lg⟩ .l0 pl fuel L E none w = .ok (data, crit) ∧
        readTable (saveWith Dbl.fmt header ((FileData.critical n crit).rows ⟨so, Dbl.arith lg⟩)) = some C ∧
        |filePc C - (∑ n ∈ Finset.range (L * L), (1 - micro (L * L) n fun T => ind (Wraps L (· ∈ T)))) / (L * L : Nat)| < ε + 1 / 10 ^ 10} ≤
        ENNReal.ofReal (2 * Real.exp (-(2 * E * ε ^ 2)))) := by
  have hL2 : L * L < 2 ^ 32 := lt_of_le_of_lt (Nat.mul_le_mul hL hL) (by norm_num)
  have steps : Nat → Draw := fun _ => ⟨0, 0⟩
  choose T C m h1 h2 h3 h4 h5 using fun x0 : DrawVec (L * L) => C107_l0 (so := so) hlg hL0 hL hE0 hE pl x0.draws steps hf hh n hε
  obtain ⟨x⟩ : Nonempty (DrawVec (L * L)) := inferInstance
  have hm : ∀ x0, m x0 = m x := by
    intro x0
    funext k c
    rw [h5 x0, h5 x]
  refine ⟨m x, h2 x, ?_, fun hL3 => ?_⟩
  · refine le_trans (le_of_eq (C108_plain (E := E) seed ⟨so, Dbl.arith lg⟩ (v := .l0) rfl hL0 hL2 pl fuel steps {r | ¬∃ data crit T, r = .ok (data, crit) ∧
        readTable (saveWith Dbl.fmt header ((FileData.table n data).rows ⟨so, Dbl.arith lg⟩)) = some T ∧
        ∀ k < L * L, ∀ c, 1 ≤ c → c < 4 → |fileEntry T k c - m x k c| < (ε + fileTol L) * colRange L c})) (ENNReal.ofReal_le_ofReal ?_)
    refine (meanOf_le fun x0 => (meanOf_le fun y => ind_mono fun hn => ?_).trans (h3 x0)).trans (le_of_eq (meanOf_const _))
    by_contra hc
    obtain ⟨data, crit, g1, _, g3, _⟩ := h1 x0 y
    refine hn ⟨data, crit, T x0 y, g1, g3, fun k hk c hc1 hc4 => ?_⟩
    by_contra hge
    refine hc ⟨k, c, hk, hc1, hc4, ?_⟩
    rw [hm x0]
    exact le_of_not_gt hge
  · refine le_trans (le_of_eq (C108_plain (E := E) seed ⟨so, Dbl.arith lg⟩ (v := .l0) rfl hL0 hL2 pl fuel steps {r | ¬∃ data crit C, r = .ok (data, crit) ∧
        readTable (saveWith Dbl.fmt header ((FileData.critical n crit).rows ⟨so, Dbl.arith lg⟩)) = some C ∧
        |filePc C - (∑ n ∈ Finset.range (L * L), (1 - micro (L * L) n fun T => ind (Wraps L (· ∈ T)))) / (L * L : Nat)| < ε + 1 / 10 ^ 10}))
        (ENNReal.ofReal_le_ofReal ?_)
    refine (meanOf_le fun x0 => (meanOf_le fun y => ind_mono fun hn => ?_).trans (h4 x0 hL3)).trans (le_of_eq (meanOf_const _))
    by_contra hc
    obtain ⟨data, crit, g1, _, _, g4⟩ := h1 x0 y
    exact hn ⟨data, crit, C x0 y, g1, g4, lt_of_not_ge hc⟩

/-- C108 for the shortest-path class, from the words to the file: the means of its two columns. -/
theorem C108_files_path (seed : Int → Nat → Word) {lg : Dbl → Dbl} (hlg : Dbl.GoodLog lg (2⁻¹ ^ 52)) (hL3 : 3 ≤ L) (hL : L ≤ 10 ^ 4) (hE : 0 < E)
    {fuel : Nat} (hf : L * L < fuel) {header : Text} (hh : '\n' ∉ header) (n : Int) {ε : ℝ} (hε : 0 < ε) :
    uniformWords {w | ¬∃ rows T, spEnsembleG (wordRng seed) ⟨so, Dbl.arith lg⟩ fuel L E none w = .ok rows ∧
      readTable (saveWith Dbl.fmt header ((FileData.path n rows).rows ⟨so, Dbl.arith lg⟩)) = some T ∧
      |fileMean T 0 - (∑ n ∈ Finset.range (L * L), (1 - micro (L * L) n fun T => ind (Wraps L (· ∈ T)))) / (L * L : Nat)| < ε + 1 / 10 ^ 10 ∧
      |fileMean T 1 - meanOf fun y : DrawVec (L * L) => spStage L (pyShuffle y.draws (List.range (L * L)))| < ε + 1 / 10 ^ 10} ≤
      ENNReal.ofReal (4 * Real.exp (-(2 * E * ε ^ 2))) := by
  have hL2 : L * L < 2 ^ 32 := lt_of_le_of_lt (Nat.mul_le_mul hL hL) (by norm_num)
  have steps : Nat → Draw := fun _ => ⟨0, 0⟩
  choose T h1 h2 h3 using fun x0 : DrawVec (L * L) => C107_shortest_path (so := so) hlg hL3 hL hE x0.draws steps hf hh n hε
  refine le_trans (le_of_eq (C108_path (E := E) seed ⟨so, Dbl.arith lg⟩ (by omega) hL2 fuel steps {r | ¬∃ rows T, r = .ok rows ∧
      readTable (saveWith Dbl.fmt header ((FileData.path n rows).rows ⟨so, Dbl.arith lg⟩)) = some T ∧
      |fileMean T 0 - (∑ n ∈ Finset.range (L * L), (1 - micro (L * L) n fun T => ind (Wraps L (· ∈ T)))) / (L * L : Nat)| < ε + 1 / 10 ^ 10 ∧
      |fileMean T 1 - meanOf fun y : DrawVec (L * L) => spStage L (pyShuffle y.draws (List.range (L * L)))| < ε + 1 / 10 ^ 10}))
      (ENNReal.ofReal_le_ofReal ?_)
  refine (meanOf_le fun x0 => ?_).trans (le_of_eq (meanOf_const _))
  have hor : ∀ P Q : Prop, ind (P ∨ Q) ≤ ind P + ind Q := by
    intro P Q
    unfold ind
    by_cases hP : P <;> by_cases hQ : Q <;> simp [hP, hQ]
  have h4 := add_le_add (h2 x0) (h3 x0)
  rw [← meanOf_add] at h4
  refine le_trans (meanOf_le fun y => ?_) (h4.trans (le_of_eq (by ring)))
  refine le_trans (ind_mono fun hn => ?_) (hor _ _)
  by_contra hc
  rw [not_or] at hc
  obtain ⟨rows, g1, g3⟩ := h1 x0 y
  exact hn ⟨rows, T x0 y, g1, g3, lt_of_not_ge hc.1, lt_of_not_ge hc.2⟩

/-- C108, a concrete case: L0 of length 100 with 2500 to 400000 realisations.  With a probability of at least 49/50 over the words of the generator all
entropies and all sizes of the largest cluster in the file of averages are within 6 percent of their ranges of the exact averages. -/
theorem C108_concrete (seed : Int → Nat → Word) {lg : Dbl → Dbl} (hlg : Dbl.GoodLog lg (2⁻¹ ^ 52)) (hE0 : 2500 ≤ E) (hE : E ≤ 4 * 10 ^ 5) (pl : Bool)
    {fuel : Nat} (hf : 50000 < fuel) {header : Text} (hh : '\n' ∉ header) (n : Int) :
    uniformWords {w | ¬∃ data crit T, runEnsembleG (wordRng seed) ⟨so, Dbl.arith lg⟩ .l0 pl fuel 100 E none w = .ok (data, crit) ∧
      readTable (saveWith Dbl.fmt header ((FileData.table n data).rows ⟨so, Dbl.arith lg⟩)) = some T ∧
      ∀ k < 10000, |fileEntry T k 1 - micro (100 * 100) (k + 1) (fun T => shannon 100 (· ∈ T))| < Real.log 20000 * (6 / 100) ∧
        |fileEntry T k 2 - micro (100 * 100) (k + 1) (fun T => ((bondComps 100 (· ∈ T)).sup Finset.card : ℕ) / (2 * (100 * 100) : Nat))| < 6 / 100} ≤
      ENNReal.ofReal (1 / 50) := by
  have steps : Nat → Draw := fun _ => ⟨0, 0⟩
  choose T h1 h2 using fun x0 : DrawVec (100 * 100) => C107_concrete (so := so) hlg hE0 hE pl x0.draws steps hf hh n
  refine le_trans (le_of_eq (C108_plain (E := E) (L := 100) seed ⟨so, Dbl.arith lg⟩ (v := .l0) rfl (by norm_num) (by norm_num) pl fuel steps
    {r | ¬∃ data crit T, r = .ok (data, crit) ∧
      readTable (saveWith Dbl.fmt header ((FileData.table n data).rows ⟨so, Dbl.arith lg⟩)) = some T ∧
      ∀ k < 10000, |fileEntry T k 1 - micro (100 * 100) (k + 1) (fun T => shannon 100 (· ∈ T))| < Real.log 20000 * (6 / 100) ∧
        |fileEntry T k 2 - micro (100 * 100) (k + 1) (fun T => ((bondComps 100 (· ∈ T)).sup Finset.card : ℕ) / (2 * (100 * 100) : Nat))| < 6 / 100}))
    (ENNReal.ofReal_le_ofReal ?_)
  refine (meanOf_le fun x0 => (meanOf_le fun y => ind_mono fun hn => ?_).trans (h2 x0)).trans (le_of_eq (meanOf_const _))
  by_contra hc
  obtain ⟨data, crit, g1, g3⟩ := h1 x0 y
  refine hn ⟨data, crit, T x0 y, g1, g3, fun k hk => ⟨?_, ?_⟩⟩
  · exact lt_of_not_ge fun hge => hc ⟨k, hk, .inl hge⟩
  · exact lt_of_not_ge fun hge => hc ⟨k, hk, .inr hge⟩

end SqPerc
