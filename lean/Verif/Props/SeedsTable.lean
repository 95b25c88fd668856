import Verif.Proof.EvalComps
import Verif.Props.Seeds
/-
C112: the whole table that `run_simulations()` writes, in exact arithmetic.
-/
namespace SqPerc

variable {so : SetOrder} {v : Variant} {L : Nat}

/-! ### Counting with one number -/

/-- A list of numbers below 2¹⁶ times each is determined by the sum of the powers. -/
def powSum (l : List Nat) : Nat := (l.map fun x => 65536 ^ x).sum

/-- The numbers above 0, less 1. -/
def lower (l : List Nat) : List Nat := (l.filter fun x => decide (0 < x)).map fun x => x - 1

theorem powSum_lower : ∀ l : List Nat, powSum l = l.count 0 + 65536 * powSum (lower l)
  | [] => rfl
  | 0 :: l => by
    have := powSum_lower l
    simp only [powSum, lower] at this ⊢
    rw [List.map_cons, List.sum_cons, this, List.count_cons_self, List.filter_cons_of_neg (by simp)]
    omega
  | (x + 1) :: l => by
    have := powSum_lower l
    simp only [powSum, lower] at this ⊢
    rw [List.map_cons, List.sum_cons, this, List.count_cons_of_ne (by simp), List.filter_cons_of_pos (by simp), List.map_cons, List.map_cons, List.sum_cons,
      Nat.add_sub_cancel, pow_succ]
    ring

theorem count_lower (m : Nat) : ∀ l : List Nat, (lower l).count m = l.count (m + 1)
  | [] => rfl
  | 0 :: l => by
    have := count_lower m l
    simp only [lower] at this ⊢
    rw [List.filter_cons_of_neg (by simp), this, List.count_cons_of_ne (by simp)]
  | (x + 1) :: l => by
    have := count_lower m l
    simp only [lower] at this ⊢
    rw [List.filter_cons_of_pos (by simp), List.map_cons, Nat.add_sub_cancel, List.count_cons, this, List.count_cons]
    simp

theorem length_lower (l : List Nat) : (lower l).length ≤ l.length := by
  rw [lower, List.length_map]
  exact List.length_filter_le _ _

theorem powSum_count : ∀ (m : Nat) {l l' : List Nat}, l.length < 65536 → l'.length < 65536 → powSum l = powSum l' → l.count m = l'.count m := by
  intro m
  have h0 : ∀ {l l' : List Nat}, l.length < 65536 → l'.length < 65536 → powSum l = powSum l' →
      l.count 0 = l'.count 0 ∧ powSum (lower l) = powSum (lower l') := by
    intro l l' h h' e
    have h1 : l.count 0 ≤ l.length := List.count_le_length
    have h2 : l'.count 0 ≤ l'.length := List.count_le_length
    rw [powSum_lower l, powSum_lower l'] at e
    omega
  induction m with
  | zero => intro l l' h h' e; exact (h0 h h' e).1
  | succ m ih =>
    intro l l' h h' e
    rw [← count_lower, ← count_lower]
    exact ih ((length_lower l).trans_lt h) ((length_lower l').trans_lt h') (h0 h h' e).2

theorem powSum_perm {l l' : List Nat} (h : l.length < 65536) (h' : l'.length < 65536) (e : powSum l = powSum l') : l.Perm l' :=
  List.perm_iff_count.2 fun m => powSum_count m h h' e

theorem powSum_append (l l' : List Nat) : powSum (l ++ l') = powSum l + powSum l' := by
  rw [powSum, List.map_append, List.sum_append]
  rfl

/-! ### Stages of one order -/

/-- The sizes of the components after the first `i + 1` sites. -/
def sizesAt (L : Nat) (q : List Nat) (i : Nat) : List Nat := ((compsAt L (singles L) q).getD i []).map Prod.snd

/-- `powSum` of the sizes. -/
def powN : List (Nat × Nat) → Nat
  | [] => 0
  | p :: cs => Nat.add (Nat.pow 65536 p.2) (powN cs)

theorem powN_eq : ∀ cs : List (Nat × Nat), powN cs = powSum (cs.map Prod.snd)
  | [] => rfl
  | p :: cs => by
    rw [powN, powN_eq cs, List.map_cons]
    rfl

/-- The sizes, the size of the largest component, and the size of the component of bond `k` from the `n`-th stage on. -/
def stageStats (n k : Nat) : Nat → List (List (Nat × Nat)) → List (Nat × Nat × Nat)
  | _, [] => []
  | i, c :: cs => (powN c, largestN c 0, bif Nat.ble n (i + 1) then sizeAt k c else 0) :: stageStats n k (i + 1) cs

theorem stageStats_get (n k : Nat) : ∀ (cs : List (List (Nat × Nat))) (j i : Nat), (stageStats n k j cs)[i]? = (cs[i]?).map fun c =>
    (powSum (c.map Prod.snd), largestN c 0, if n ≤ j + i + 1 then sizeAt k c else 0)
  | [], j, i => by simp [stageStats]
  | c :: cs, j, 0 => by
    rw [stageStats, List.getElem?_cons_zero, List.getElem?_cons_zero, Option.map_some, powN_eq]
    by_cases h : n ≤ j + 1
    · rw [Nat.ble_eq_true_of_le h, if_pos (by omega)]; rfl
    · rw [show Nat.ble n (j + 1) = false from Bool.eq_false_iff.2 fun h' => h (Nat.le_of_ble_eq_true h'), if_neg (by omega)]; rfl
  | c :: cs, j, i + 1 => by
    rw [stageStats, List.getElem?_cons_succ, List.getElem?_cons_succ, stageStats_get n k cs (j + 1) i, show j + 1 + i + 1 = j + (i + 1) + 1 by omega]

/-- The same for an order that wraps with its `n`-th site. -/
def orderStats (L : Nat) (q : List Nat) (n : Nat) : List (Nat × Nat × Nat) := match q.drop (n - 1) with
  | [] => []
  | k :: _ => stageStats n k 0 (compsAt L (singles L) q)

theorem orderStats_spec (hL : 3 ≤ L) {q : List Nat} (hl : q.length = L * L) {n : Nat} (h : wrapsFirst L q n = true) {i : Nat} (hi : i < L * L) :
    (orderStats L q n)[i]? = some (powSum (sizesAt L q i), seqLargest L (q.take (i + 1)), seqWrapping L (q.take (i + 1))) ∧
      shannon L (· ∈ q.take (i + 1)) = -((sizesAt L q i).map (mulog L)).sum ∧ (sizesAt L q i).length ≤ 2 * (L * L) := by
  have hlt : ∀ s ∈ q, s < L * L := by
    rw [wrapsFirst] at h
    cases hd : q.drop (n - 1) with
    | nil => rw [hd] at h; cases h
    | cons k post =>
      rw [hd] at h
      simp only [Bool.and_eq_true, decide_eq_true_eq, List.all_eq_true] at h
      exact h.1.1.2
  obtain ⟨k, post, h0, e1, e2, f, w, hlen, _⟩ := wrapsFirst_spec h
  obtain ⟨c1, c2⟩ := compsAt_listed q (listed_singles (L := L) (occ := (· ∈ ([] : List Nat))) (by simp)) hlt
  have hd : q.drop (n - 1) = k :: post := List.append_cancel_left ((List.take_append_drop (n - 1) q).trans e1)
  have hk : k < L * L := hlt k (by rw [e1]; simp)
  obtain ⟨c, hc⟩ : ∃ c, (compsAt L (singles L) q)[i]? = some c := ⟨_, List.getElem?_eq_getElem (by omega)⟩
  have I := c2 i c hc
  simp only [List.nil_append] at I
  have hs : sizesAt L q i = c.map Prod.snd := by rw [sizesAt, List.getD_eq_getElem?_getD, hc]; rfl
  refine ⟨?_, ?_, ?_⟩
  · rw [orderStats, hd]
    show (stageStats n k 0 _)[i]? = _
    rw [stageStats_get, hc, Option.map_some, hs, Nat.zero_add]
    have hne : q.take (i + 1) ≠ [] := by
      intro h'
      have := congrArg List.length h'
      rw [List.length_take, List.length_nil] at this
      omega
    rw [seqLargest, if_neg hne, I.largest, seqWrapping, if_neg (show ¬ L < 3 by omega)]
    by_cases hn : n ≤ i + 1
    · have e3 : q.take (i + 1) = q.take (n - 1) ++ k :: post.take (i + 1 - n) := by
        conv_lhs => rw [e1]
        rw [List.take_append, List.take_of_length_le (by omega), show i + 1 - (q.take (n - 1)).length = (i + 1 - n) + 1 by omega, List.take_succ_cons]
      have hf : firstWrap L [] (q.take (i + 1)) = some (q.take (n - 1), k) := by
        rw [e3]
        have := firstWrap_of (L := L) (pre0 := []) (pre := q.take (n - 1)) (k := k) (post := post.take (i + 1 - n)) (by simpa using f) (by
          obtain ⟨x, hx, hw⟩ := w
          rw [e2] at hw
          exact ⟨k, x, hx, by simpa using hw⟩)
        simpa using this
      rw [hf, if_pos hn]
      show _ = some (_, _, (bondComp L (· ∈ q.take (i + 1)) k).card)
      rw [I.sizeAt (by omega)]
    · have hf : firstWrap L [] (q.take (i + 1)) = none := firstWrap_none fun hw => f (hw.mono fun s hs => by
        rw [List.nil_append] at hs
        exact (List.take_prefix_take_left (by omega)).subset hs)
      rw [hf, if_neg hn]
  · rw [shannon, hs, List.map_map]
    congr 1
    exact I.sum (mulog L)
  · rw [hs, List.length_map]
    exact I.length_le

/-! ### Sums over the orders -/

def addStats : List (Nat × Nat × Nat) → List (Nat × Nat × Nat) → List (Nat × Nat × Nat)
  | a :: as, b :: bs => (Nat.add a.1 b.1, Nat.add a.2.1 b.2.1, Nat.add a.2.2 b.2.2) :: addStats as bs
  | _, _ => []

theorem addStats_get : ∀ (as bs : List (Nat × Nat × Nat)) (i : Nat) {a b : Nat × Nat × Nat}, as[i]? = some a → bs[i]? = some b →
    (addStats as bs)[i]? = some (a.1 + b.1, a.2.1 + b.2.1, a.2.2 + b.2.2)
  | [], _, i, _, _, h, _ => by simp at h
  | _ :: _, [], i, _, _, _, h => by simp at h
  | a' :: as, b' :: bs, 0, a, b, h, h' => by
    obtain rfl : a' = a := by simpa using h
    obtain rfl : b' = b := by simpa using h'
    rfl
  | a' :: as, b' :: bs, i + 1, a, b, h, h' => by
    rw [addStats, List.getElem?_cons_succ]
    exact addStats_get as bs i (by simpa using h) (by simpa using h')

/-- The sums over the orders, stage by stage. -/
def totals (L : Nat) : List (List Nat) → List (Nat × Nat × Nat) → List (Nat × Nat × Nat)
  | q :: qs, r :: rs => addStats (orderStats L q r.1) (totals L qs rs)
  | _, _ => List.replicate (L * L) (0, 0, 0)

theorem totals_spec (hL : 3 ≤ L) {i : Nat} (hi : i < L * L) : ∀ {qs : List (List Nat)} {rs : List (Nat × Nat × Nat)}, rowsAre L qs rs = true →
    (∀ q ∈ qs, q.length = L * L) →
    (totals L qs rs)[i]? = some (powSum (qs.flatMap fun q => sizesAt L q i), (qs.map fun q => seqLargest L (q.take (i + 1))).sum,
      (qs.map fun q => seqWrapping L (q.take (i + 1))).sum) ∧
    (qs.map fun q => shannon L (· ∈ q.take (i + 1))).sum = -((qs.flatMap fun q => sizesAt L q i).map (mulog L)).sum ∧
    (qs.flatMap fun q => sizesAt L q i).length ≤ qs.length * (2 * (L * L))
  | [], [], _, _ => by
    refine ⟨?_, by simp, by simp⟩
    rw [totals, List.getElem?_replicate, if_pos hi]
    rfl
    all_goals simp
  | [], _ :: _, h, _ => by cases h
  | _ :: _, [], h, _ => by cases h
  | q :: qs, r :: rs, h, hl => by
    rw [rowsAre, Bool.and_eq_true] at h
    obtain ⟨h1, h2⟩ := h
    rw [rowIs, Bool.and_eq_true] at h1
    obtain ⟨a1, a2, a3⟩ := orderStats_spec hL (hl q List.mem_cons_self) h1.1 hi
    obtain ⟨b1, b2, b3⟩ := totals_spec hL hi h2 fun q hq => hl q (List.mem_cons_of_mem _ hq)
    refine ⟨?_, ?_, ?_⟩
    · rw [totals, addStats_get _ _ i a1 b1, List.flatMap_cons, powSum_append]
      simp
    · rw [List.map_cons, List.sum_cons, a2, b2, List.flatMap_cons, List.map_append, List.sum_append]
      ring
    · rw [List.flatMap_cons, List.length_append, List.length_cons, Nat.add_mul]
      omega

/-- Number `m` taken `c` times, for each pair `(m, c)`. -/
def expand (l : List (Nat × Nat)) : List Nat := l.flatMap fun x => List.replicate x.2 x.1

/-- `powSum` of the numbers that `expand` gives. -/
def powPairs : List (Nat × Nat) → Nat
  | [] => 0
  | x :: l => Nat.add (Nat.mul x.2 (Nat.pow 65536 x.1)) (powPairs l)

theorem powPairs_eq : ∀ l : List (Nat × Nat), powPairs l = powSum (expand l)
  | [] => rfl
  | x :: l => by
    rw [powPairs, powPairs_eq l, show expand (x :: l) = List.replicate x.2 x.1 ++ expand l from rfl, powSum_append]
    congr 1
    rw [powSum, List.map_replicate, List.sum_replicate, smul_eq_mul]
    rfl

theorem expand_sum (f : Nat → ℝ) : ∀ l : List (Nat × Nat), ((expand l).map f).sum = (l.map fun x => (x.2 : ℝ) * f x.1).sum
  | [] => rfl
  | x :: l => by
    have := expand_sum f l
    rw [expand] at this ⊢
    rw [List.flatMap_cons, List.map_append, List.sum_append, this, List.map_replicate, List.sum_replicate, List.map_cons, List.sum_cons, nsmul_eq_mul]

/-- The sums are those of the rows. -/
def totalsAre : List (Nat × Nat × Nat) → List (Nat × Nat × List (Nat × Nat)) → Bool
  | [], [] => true
  | t :: ts, r :: rs => Nat.beq t.1 (powPairs r.2.2) && Nat.beq t.2.1 r.1 && Nat.beq t.2.2 r.2.1 && totalsAre ts rs
  | _, _ => false

theorem totalsAre_get : ∀ {ts : List (Nat × Nat × Nat)} {rs : List (Nat × Nat × List (Nat × Nat))}, totalsAre ts rs = true → ts.length = rs.length ∧
    ∀ (i : Nat) {t : Nat × Nat × Nat} {r : Nat × Nat × List (Nat × Nat)}, ts[i]? = some t → rs[i]? = some r → t.1 = powSum (expand r.2.2) ∧ t.2.1 = r.1 ∧ t.2.2 = r.2.1
  | [], [], _ => ⟨rfl, fun i _ _ h _ => by simp at h⟩
  | [], _ :: _, h => by cases h
  | _ :: _, [], h => by cases h
  | t :: ts, r :: rs, h => by
    rw [totalsAre, Bool.and_eq_true, Bool.and_eq_true, Bool.and_eq_true] at h
    obtain ⟨⟨⟨h1, h2⟩, h3⟩, h4⟩ := h
    obtain ⟨e, f⟩ := totalsAre_get h4
    refine ⟨by rw [List.length_cons, List.length_cons, e], fun i t' r' ht hr => ?_⟩
    cases i with
    | zero =>
      obtain rfl : t = t' := by simpa using ht
      obtain rfl : r = r' := by simpa using hr
      exact ⟨by rw [← powPairs_eq]; exact Nat.eq_of_beq_eq_true h1, Nat.eq_of_beq_eq_true h2, Nat.eq_of_beq_eq_true h3⟩
    | succ i => exact f i (by simpa using ht) (by simpa using hr)

/-! ### The table -/

/-- The table of averages over `E` realisations.  Row `k` is given by the sum of the sizes of the largest components, the sum of the sizes of the wrapping
components, and how often (`x.2`) there is a component with `x.1` bonds, with `k + 1` occupied sites. -/
noncomputable def averagesOf (L E : Nat) (rows : List (Nat × Nat × List (Nat × Nat))) : List (List ℝ) :=
  rows.mapIdx fun k r => [((k + 1 : Nat) : ℝ) / (L * L : Nat),
    -(r.2.2.map fun x => (x.2 : ℝ) * (((x.1 : ℝ) / (2 * (L * L) : Nat)) * Real.log ((x.1 : ℝ) / (2 * (L * L) : Nat)))).sum / E,
    (r.1 : ℝ) / (2 * (L * L) : Nat) / E, (r.2.1 : ℝ) / (2 * (L * L) : Nat) / E]

theorem sum_div_const (qs : List (List Nat)) (f : List Nat → Nat) (c : ℝ) : (qs.map fun q => (f q : ℝ) / c).sum = ((qs.map f).sum : ℝ) / c := by
  induction qs with
  | nil => simp
  | cons q qs ih => rw [List.map_cons, List.sum_cons, ih, List.map_cons, List.sum_cons, Nat.cast_add, add_div]

/-- The table from the sums over the orders. -/
theorem table_of_totals (hL : 3 ≤ L) {qs : List (List Nat)} {rs : List (Nat × Nat × Nat)} (hr : rowsAre L qs rs = true) (hl : ∀ q ∈ qs, q.length = L * L)
    (hn : qs.length * (2 * (L * L)) < 65536) {rows : List (Nat × Nat × List (Nat × Nat))} (h : totalsAre (totals L qs rs) rows = true)
    (hlen : rows.length = L * L) (hx : ∀ r ∈ rows, (expand r.2.2).length < 65536) {table : List (List ℝ)} (ht : table.length = L * L)
    (hrow : ∀ k < L * L, table[k]? = some [((k + 1 : Nat) : ℝ) / (L * L : Nat), meanOver qs (fun q => shannon L (· ∈ q.take (k + 1))),
      meanOver qs (fun q => (seqLargest L (q.take (k + 1)) : ℝ) / (2 * (L * L) : Nat)),
      meanOver qs (fun q => (seqWrapping L (q.take (k + 1)) : ℝ) / (2 * (L * L) : Nat))]) : table = averagesOf L qs.length rows := by
  refine List.ext_getElem? fun k => ?_
  by_cases hk : k < L * L
  · obtain ⟨a1, a2, a3⟩ := totals_spec hL hk hr hl
    obtain ⟨r, hr'⟩ : ∃ r, rows[k]? = some r := ⟨_, List.getElem?_eq_getElem (by omega)⟩
    obtain ⟨c1, c2, c3⟩ := (totalsAre_get h).2 k a1 hr'
    rw [hrow k hk, averagesOf, List.getElem?_mapIdx, hr', Option.map_some, meanOver, meanOver, meanOver, sum_div_const, sum_div_const, a2]
    have hp := powSum_perm (a3.trans_lt hn) (hx r (List.mem_of_getElem? hr')) c1
    rw [(hp.map (mulog L)).sum_eq, expand_sum]
    simp only at c2 c3
    rw [c2, c3]
    rfl
  · rw [List.getElem?_eq_none (by omega), List.getElem?_eq_none (by rw [averagesOf, List.length_mapIdx]; omega)]

/-- The order parameter of the largest component, from the sums. -/
theorem ordL_at {α : Type} (env : Env α) (hL : 3 ≤ L) {q : List Nat} (hl : q.length = L * L) {n : Nat} (h : wrapsFirst L q n = true) {i : Nat} (hi : i < L * L) :
    ordL env L (q.take (i + 1)) = env.ar.div (env.ar.ofNat ((orderStats L q n).getD i (0, 0, 0)).2.1) (env.ar.ofNat (2 * (L * L))) := by
  rw [List.getD_eq_getElem?_getD, (orderStats_spec hL hl h hi).1]
  rfl

/-- C112: `test_detect_wrapping()` of percolation_sq_lattice_L0.py:166-196, with the seed 18, prints 19 lines, with the listed numbers of bonds of the largest
component, then once more the line for `p = 19 / 36` and the text that the wrapping is detected. -/
theorem C112_detect_l0 {α : Type} (env : Env α) {fuel : Nat} (hf : 36 < fuel) (ds : Nat → Draw) : ∃ (S S' : Perc α) (outs : List (Printed α)),
    Perc.new env 6 (seedDraws 18 6) = .ok S ∧ outs.length = 19 ∧
    (∀ j n, ([4, 4, 4, 7, 7, 7, 7, 10, 10, 16, 18, 18, 21, 22, 22, 25, 49, 52, 54] : List Nat)[j]? = some n → ∃ h1 h2 : α, outs[j]? =
      some (Printed.values ["p= ", " entropy_v1 ", " entropy_v2 ", " order wrapping ", " order largest "]
        [env.ar.div (env.ar.ofNat (j + 1)) (env.ar.ofNat 36), h1, h2, env.ar.ofNat 0, env.ar.div (env.ar.ofNat n) (env.ar.ofNat 72)])) ∧
    demoDetectL0 env 6 fuel (seedDraws 18 6) ds = .ok (S', outs ++ [.values ["p= ", " entropy ", " order "]
      [env.ar.div (env.ar.ofNat 19) (env.ar.ofNat 36), S'.entropy, env.ar.div (env.ar.ofNat 54) (env.ar.ofNat 72)],
      .text "Wrapping detected ***************** <<<\n".toList]) ∧
    S'.getPc env = env.ar.div (env.ar.ofNat 19) (env.ar.ofNat 36) := by
  obtain ⟨S, S', outs, e, hlen, hq, h1, h2⟩ := detect_l0_lines env hf ds
  have hw : wrapsFirst 6 order18 19 = true := by decide +kernel
  have hst : ((orderStats 6 order18 19).take 19).map (fun t => t.2.1) = ([4, 4, 4, 7, 7, 7, 7, 10, 10, 16, 18, 18, 21, 22, 22, 25, 49, 52, 54] : List Nat) := by decide +kernel
  have hl : (order18.take 19).length = 19 := by decide
  have ho : ∀ j n, ([4, 4, 4, 7, 7, 7, 7, 10, 10, 16, 18, 18, 21, 22, 22, 25, 49, 52, 54] : List Nat)[j]? = some n → j < 19 ∧
      ordL env 6 (order18.take (j + 1)) = env.ar.div (env.ar.ofNat n) (env.ar.ofNat 72) := by
    intro j n hj
    have hj19 : j < 19 := (List.getElem?_eq_some_iff.1 hj).1
    refine ⟨hj19, ?_⟩
    rw [ordL_at env (by norm_num) (by decide) hw (by omega)]
    rw [← hst, List.getElem?_map, List.getElem?_take_of_lt hj19] at hj
    rw [List.getD_eq_getElem?_getD]
    cases hs : (orderStats 6 order18 19)[j]? with
    | none => rw [hs] at hj; cases hj
    | some t =>
      rw [hs] at hj
      rw [← Option.some.inj hj]
      rfl
  rw [(ho 18 54 rfl).2] at h1
  refine ⟨S, S', outs, e, hlen, fun j n hj => ?_, h1, h2⟩
  obtain ⟨hj19, hn⟩ := ho j n hj
  obtain ⟨o, ho'⟩ : ∃ o, outs[j]? = some o := ⟨_, List.getElem?_eq_getElem (by omega)⟩
  obtain ⟨T, h, _, _, _, rfl⟩ := hq j o ho'
  refine ⟨h, T.entropy, ?_⟩
  rw [ho', hn, prob, List.length_take, show order18.length = 36 by decide, Nat.min_eq_left (by omega)]

/-- The sums for the 100 realisations of `run_simulations()`. -/
def simulationsTable : List (Nat × Nat × List (Nat × Nat)) := [
  (400, 0, [(1, 4600), (4, 100)]),
  (436, 0, [(1, 4212), (4, 176), (7, 12)]),
  (520, 0, [(1, 3840), (4, 224), (7, 32), (10, 4)]),
  (658, 0, [(1, 3492), (4, 237), (7, 53), (10, 15), (13, 3)]),
  (811, 0, [(1, 3159), (4, 231), (7, 73), (10, 27), (13, 8), (16, 2)]),
  (988, 0, [(1, 2838), (4, 224), (7, 76), (10, 38), (13, 12), (16, 10), (19, 2)]),
  (1219, 0, [(1, 2541), (4, 208), (7, 64), (10, 37), (12, 1), (13, 29), (16, 8), (18, 2), (19, 10), (22, 3)]),
  (1485, 0, [(1, 2268), (4, 183), (7, 49), (10, 34), (13, 33), (15, 3), (16, 14), (18, 2), (19, 8), (20, 1), (21, 2), (22, 9), (23, 1), (24, 2), (25, 4)]),
  (1756, 66, [(1, 1998), (4, 160), (7, 42), (10, 32), (12, 1), (13, 30), (15, 7), (16, 12), (17, 1), (18, 2), (19, 7), (21, 5), (22, 11), (23, 1), (24, 3), (25, 7), (26, 2), (27, 2), (28, 5)]),
  (2037, 131, [(1, 1744), (4, 119), (7, 32), (10, 39), (13, 26), (15, 5), (16, 15), (18, 2), (19, 9), (21, 4), (22, 8), (23, 2), (24, 6), (25, 4), (26, 2), (27, 4), (28, 5), (29, 1), (30, 7), (31, 7)]),
  (2493, 262, [(1, 1511), (4, 89), (7, 26), (10, 21), (13, 12), (15, 3), (16, 14), (18, 3), (19, 12), (21, 2), (22, 8), (24, 6), (25, 9), (26, 5), (27, 4), (28, 7), (29, 2), (30, 7), (31, 8), (32, 3), (33, 7), (34, 5)]),
  (2848, 729, [(1, 1284), (4, 76), (7, 23), (10, 11), (13, 7), (15, 1), (16, 8), (17, 1), (18, 5), (19, 14), (21, 5), (22, 2), (24, 2), (25, 5), (26, 5), (27, 1), (28, 6), (29, 4), (30, 6), (31, 7), (32, 7), (33, 7), (34, 8), (35, 7), (36, 5), (37, 6)]),
  (3396, 1368, [(1, 1090), (4, 53), (7, 18), (10, 5), (13, 3), (16, 3), (18, 2), (19, 2), (21, 2), (22, 2), (24, 1), (25, 3), (28, 1), (29, 3), (30, 4), (31, 4), (32, 7), (33, 14), (34, 5), (35, 6), (36, 6), (37, 9), (38, 11), (39, 16), (40, 4)]),
  (3766, 2433, [(1, 905), (4, 38), (7, 11), (10, 4), (13, 2), (16, 1), (18, 1), (24, 2), (25, 1), (26, 1), (30, 1), (32, 3), (33, 6), (34, 5), (35, 8), (36, 4), (37, 6), (38, 8), (39, 10), (40, 24), (41, 11), (42, 8), (43, 2)]),
  (4061, 3241, [(1, 734), (4, 26), (7, 5), (10, 4), (13, 2), (32, 1), (33, 3), (35, 4), (36, 6), (38, 8), (39, 3), (40, 17), (41, 11), (42, 19), (43, 14), (44, 9), (45, 4), (46, 1)]),
  (4309, 4175, [(1, 594), (4, 15), (7, 2), (10, 1), (13, 1), (34, 1), (35, 1), (36, 1), (37, 1), (38, 1), (39, 2), (40, 4), (41, 7), (42, 12), (43, 17), (44, 28), (45, 15), (46, 8), (47, 2)]),
  (4497, 4451, [(1, 448), (4, 12), (7, 1), (38, 1), (40, 2), (41, 3), (42, 1), (43, 7), (44, 16), (45, 29), (46, 26), (47, 12), (48, 3)]),
  (4636, 4636, [(1, 340), (4, 6), (42, 1), (43, 1), (44, 7), (45, 15), (46, 28), (47, 29), (48, 14), (49, 5)]),
  (4750, 4750, [(1, 238), (4, 3), (45, 4), (46, 17), (47, 25), (48, 35), (49, 17), (50, 2)]),
  (4846, 4846, [(1, 150), (4, 1), (46, 3), (47, 14), (48, 30), (49, 40), (50, 13)]),
  (4906, 4906, [(1, 94), (47, 1), (48, 25), (49, 41), (50, 33)]),
  (4952, 4952, [(1, 48), (48, 5), (49, 38), (50, 57)]),
  (4985, 4985, [(1, 15), (49, 15), (50, 85)]),
  (5000, 5000, [(50, 100)]),
  (5000, 5000, [(50, 100)])]

theorem simulationsTable_true : totalsAre (totals 5 simulationsOrders simulationsRows) simulationsTable = true := by decide +kernel

/-- C112: the two files that `run_simulations()` (rsbd_percolatioin_run.py:159-167) writes, in exact arithmetic: all columns of the table of averages, and the
critical values. -/
theorem C112_simulations {fuel : Nat} (hf : 125 < fuel) (g : Nat → Word) (t : Stamp) : runSimulations pyRng (realEnv so) true fuel g t =
    .ok [(fileName .l0 .entropyOrder 5 t (some 0), .table 100 (averagesOf 5 100 simulationsTable)),
      (fileName .l0 .criticalValues 5 t (some 0), .critical 100 (simulationsRows.map fun r => ⟨(r.1 : ℝ) / (5 * 5 : Nat), r.2.1, r.2.2⟩))] := by
  obtain ⟨d, h1, h2, e⟩ := simulations_of (so := so) simulationsOrders_true simulationsRows_true (by decide +kernel) hf g t
  have hl : simulationsOrders.length = 100 := by decide +kernel
  rw [e, table_of_totals (by norm_num) simulationsRows_true (by decide +kernel) (by rw [hl]; norm_num) simulationsTable_true (by decide +kernel)
    (by decide +kernel) h1 h2, hl]

theorem blocks_length {σ : Type} (G : Rng σ) (reqs : List Nat) : ∀ (n : Nat) (s : σ), (G.blocks reqs n s).length = n
  | 0, _ => rfl
  | n + 1, s => by
    rw [Rng.blocks, List.length_cons, blocks_length G reqs n]

/-- C112: the same two files with Python's floats, read back: every average agrees with the listed one up to `fileTol` times the range of its column, every
threshold up to a relative error of `10⁻¹⁰`, and the numbers of sites and bonds are the listed ones. -/
theorem C112_simulations_files {lg : Dbl → Dbl} (hlg : Dbl.GoodLog lg (2⁻¹ ^ 52)) {fuel : Nat} (hf : 125 < fuel) (g : Nat → Word) (t : Stamp)
    {header header' : Text} (hh : '\n' ∉ header) (hh' : '\n' ∉ header') :
    ∃ (data : List (List Dbl)) (crit : List (CritRow Dbl)) (T C : List (List ℚ)),
      runSimulations pyRng ⟨so, Dbl.arith lg⟩ true fuel g t = .ok [(fileName .l0 .entropyOrder 5 t (some 0), .table 100 data),
        (fileName .l0 .criticalValues 5 t (some 0), .critical 100 crit)] ∧
      readTable (saveWith Dbl.fmt header ((FileData.table 100 data).rows ⟨so, Dbl.arith lg⟩)) = some T ∧
      readTable (saveWith Dbl.fmt header' ((FileData.critical 100 crit).rows ⟨so, Dbl.arith lg⟩)) = some C ∧
      (∀ k < 25, |fileEntry T k 0 - ((k + 1 : Nat) : ℝ) / 25| ≤ 1 / 10 ^ 9 * (((k + 1 : Nat) : ℝ) / 25)) ∧
      (∀ k < 25, ∀ c, 1 ≤ c → c < 4 → |fileEntry T k c - entry (averagesOf 5 100 simulationsTable) k c| ≤ fileTol 5 * colRange 5 c) ∧
      List.Forall₂ (fun (row : List ℚ) (r : Nat × Nat × Nat) => ∃ p : ℚ, row = [p, (r.2.1 : ℚ), (r.2.2 : ℚ)] ∧
        |(p : ℝ) - (r.1 : ℝ) / 25| ≤ 1 / 10 ^ 10 * ((r.1 : ℝ) / 25)) C simulationsRows := by
  obtain ⟨as, bs, g1, g2⟩ := C72_ensemble (G := pyRng) (env := ⟨so, Dbl.arith lg⟩) (v := .l0) rfl (L := 5) (by norm_num) false fuel 100
    (fun _ => ⟨0, 0⟩) (some 0) g
  obtain ⟨as', bs', g1', g2'⟩ := C72_ensemble (G := pyRng) (env := realEnv so) (v := .l0) rfl (L := 5) (by norm_num) false fuel 100
    (fun _ => ⟨0, 0⟩) (some 0) g
  obtain ⟨rfl, rfl⟩ := List.cons.inj (g1.symm.trans g1')
  have hlen : bs.length = 100 := by
    have := congrArg List.length g1
    rw [blocks_length, List.length_cons] at this
    omega
  have hf' : ∀ r ∈ runsOf (5 * 5) fuel (fun _ => ⟨0, 0⟩) bs, 5 * (5 * 5) < r.fuel := by
    intro r hr
    obtain ⟨_, _, rfl⟩ := List.mem_map.1 hr
    exact hf
  have hl : (runsOf (5 * 5) fuel (fun _ => ⟨0, 0⟩) bs).length = 100 := by rw [runsOf, List.length_map, hlen]
  have hne : runsOf (5 * 5) fuel (fun _ => ⟨0, 0⟩) bs ≠ [] := fun h => by rw [h] at hl; cases hl
  obtain ⟨data, crit, T, _, table, rows, e1, _, e2, _, e3, _, e4, e5, _⟩ := C107_exact (so := so) (so' := so) hlg (v := .l0) (by decide) (L := 5) (by norm_num)
    (by norm_num) hne (by rw [hl]; norm_num) false (choices (5 * 5) as) hf' hh 100
  obtain ⟨_, _, _, C, _, _, e1', _, _, e2', e3', _, _, _, e6⟩ := C107_exact (so := so) (so' := so) hlg (v := .l0) (by decide) (L := 5) (by norm_num)
    (by norm_num) hne (by rw [hl]; norm_num) false (choices (5 * 5) as) hf' hh' 100
  obtain ⟨rfl, rfl⟩ := Prod.mk.inj (Except.ok.inj (e1.symm.trans e1'))
  obtain ⟨rfl, rfl⟩ := Prod.mk.inj (Except.ok.inj (e3.symm.trans e3'))
  have ex := C112_simulations (so := so) hf g t
  simp only [runSimulations] at ex
  rw [g2', e3] at ex
  have ex' := List.cons.inj (Except.ok.inj ex)
  have h1 : table = averagesOf 5 100 simulationsTable := by
    have := (Prod.mk.inj ex'.1).2
    exact (FileData.table.inj this).2
  have h2 : rows = simulationsRows.map fun r => ⟨(r.1 : ℝ) / (5 * 5 : Nat), r.2.1, r.2.2⟩ := by
    have := (Prod.mk.inj (List.cons.inj ex'.2).1).2
    exact (FileData.critical.inj this).2
  refine ⟨data, crit, T, C, ?_, e2, e2', fun k hk => ?_, fun k hk c h h' => ?_, ?_⟩
  · simp only [runSimulations]
    rw [g2, e1]
    rfl
  · have := e4 k hk
    norm_num at this ⊢
    exact this
  · rw [← h1]
    exact e5 k hk c h h'
  · rw [h2, List.forall₂_map_right_iff] at e6
    refine e6.imp ?_
    rintro row r ⟨p, a1, a2, _⟩
    refine ⟨p, a1, ?_⟩
    norm_num at a2 ⊢
    exact a2

end SqPerc
