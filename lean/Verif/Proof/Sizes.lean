import Verif.Proof.Wrap
import Verif.Proof.Bounds
import Mathlib.Algebra.Order.BigOperators.Group.Finset
import Mathlib.Algebra.BigOperators.Ring.Finset
import Mathlib.Algebra.Group.Action.Defs
/-
Site and bond counts of one cluster, and the critical counts.
-/
namespace SqPerc

variable {α : Type} {L k : Nat} {V V' : LV} {P P' : PV} {r : Int} {env : Env α}

/-- Number of sites of cluster `g`. -/
def PV.slen (P : PV) (g : Int) : Nat := (P.cs g).length

theorem adjSet_card_le : (adjSet L V k).card ≤ 4 := by
  unfold adjSet
  refine le_trans (List.toFinset_card_le _) ?_
  rw [List.length_map]; rfl

namespace PlaceEffect

theorem slen_root (E : PlaceEffect L k r V V' P P') : P'.slen r = (∑ g ∈ adjSet L V k, P.slen g) + 1 := by
  obtain ⟨l, hn, hm, e⟩ := E.csRoot
  have hr : r ∉ l := fun h => ((hm r).1 h).2 rfl
  have : adjSet L V k = (r :: l).toFinset := by
    ext g
    rw [mem_adjSet, List.mem_toFinset, List.mem_cons, hm]
    constructor
    · intro h
      by_cases hg : g = r
      · exact Or.inl hg
      · exact Or.inr ⟨h, hg⟩
    · rintro (rfl | h)
      · exact E.adj
      · exact h.1
  rw [this, List.sum_toFinset _ (List.nodup_cons.2 ⟨hr, hn⟩), PV.slen, e, List.map_cons, List.sum_cons, List.length_append,
    List.length_append, List.length_flatMap, List.length_singleton]
  show (P.cs r).length + 1 + _ = (P.cs r).length + (l.map fun g => (P.cs g).length).sum + 1
  omega

theorem slen_cleared (E : PlaceEffect L k r V V' P P') {g : Int} (h : Adj L V k g) (hr : g ≠ r) : P'.slen g = 0 := by
  rw [PV.slen, E.csCleared g h hr]; rfl

theorem slen_kept (E : PlaceEffect L k r V V' P P') {g : Int} (h : ¬ Adj L V k g) : P'.slen g = P.slen g := by
  rw [PV.slen, E.csKept g h]; rfl

end PlaceEffect

/-- A cluster of `n` sites has at most `3 n + 1` bonds. -/
def SizeInv (L : Nat) (A : Abs α) : Prop := ∀ g ∈ gids L, A.P.len g ≤ 3 * A.P.slen g + 1

theorem SizeInv.step {A A' : Abs α} (h : SizeInv L A) (hs : AStep env L A A') (I : AInv L A) : SizeInv L A' := by
  cases hs with
  | @place k r V' P' hk hu E _ =>
    intro g hg
    show P'.len g ≤ 3 * P'.slen g + 1
    by_cases hA : Adj L A.V k g
    · by_cases hr : g = r
      · subst hr
        rw [E.len_root, E.slen_root]
        have h1 : ∑ g ∈ adjSet L A.V k, A.P.len g ≤ ∑ g ∈ adjSet L A.V k, (3 * A.P.slen g + 1) :=
          Finset.sum_le_sum fun x hx => h x (adjSet_subset I.core hk hx)
        rw [Finset.sum_add_distrib, ← Finset.mul_sum, Finset.sum_const, smul_eq_mul, mul_one] at h1
        have := adjSet_card_le (L := L) (V := A.V) (k := k)
        omega
      · rw [E.len_cleared hA hr]; omega
    · rw [E.len_kept hA, E.slen_kept hA]; exact h g hg
  | tick _ => exact h
  | detect _ _ _ _ => exact h
  | reselect _ _ => exact h

theorem SizeInv.init (env : Env α) (L : Nat) (sel : Option Nat) : SizeInv L (Abs.init env L sel) := fun _ _ => le_rfl

theorem AReach.size {A : Abs α} (h : AReach env L A) : SizeInv L A := by
  induction h with
  | init _ => exact SizeInv.init env L _
  | step h hs ih => exact ih.step hs h.inv

/-- The sites of a cluster, as a set. -/
theorem Core.cs_toFinset (C : Core L V P) {g : Int} (hg : g ∈ gids L) :
    (P.cs g).toFinset = (Finset.range (L * L)).filter fun s => V.sg s = g := by
  obtain ⟨h0, h1⟩ := mem_gids.1 hg
  ext b
  rw [List.mem_toFinset, C.mems g h0 h1, Finset.mem_filter, Finset.mem_range]

theorem Core.slen_eq_card (C : Core L V P) {g : Int} (hg : g ∈ gids L) :
    P.slen g = ((Finset.range (L * L)).filter fun s => V.sg s = g).card := by
  obtain ⟨h0, h1⟩ := mem_gids.1 hg
  rw [← C.cs_toFinset hg, List.toFinset_card_of_nodup (C.nds g h0 h1)]; rfl

/-- A cluster with `n` sites has at least `2 n` bonds. -/
theorem Core.two_mul_slen_le (C : Core L V P) {g : Int} (hg : g ∈ gids L) : 2 * P.slen g ≤ P.len g := by
  classical
  rw [C.slen_eq_card hg, C.len_eq_card hg]
  set X := (Finset.range (L * L)).filter fun s => V.sg s = g with hX
  have hmem : ∀ s ∈ X, s < L * L ∧ V.sg s = g := by
    intro s hs
    simp only [hX, Finset.mem_filter, Finset.mem_range] at hs
    exact hs
  have hsub : X ∪ X.image (L * L + ·) ⊆ (Finset.range (2 * (L * L))).filter fun b => V.bg b = g := by
    intro b hb
    rw [Finset.mem_union, Finset.mem_image] at hb
    rw [Finset.mem_filter, Finset.mem_range]
    have key : ∀ s d, s ∈ X → bondAt L s d < 2 * (L * L) ∧ V.bg (bondAt L s d) = g := by
      intro s d hs
      obtain ⟨h1, h2⟩ := hmem s hs
      exact ⟨bondAt_lt h1 d, by rw [C.inc s d ⟨h1, h2 ▸ (mem_gids.1 hg).1⟩, h2]⟩
    rcases hb with hb | ⟨s, hs, rfl⟩
    · exact key b .right hb
    · exact key s .down hs
  have hdisj : Disjoint X (X.image (L * L + ·)) := by
    rw [Finset.disjoint_left]
    intro b hb h
    obtain ⟨s, _, e⟩ := Finset.mem_image.1 h
    have := (hmem b hb).1
    omega
  have := Finset.card_le_card hsub
  rw [Finset.card_union_of_disjoint hdisj, Finset.card_image_of_injective _ (add_right_injective _)] at this
  omega

/-- The sites of the cluster of `s` are the component of `s`. -/
theorem Core.siteComp_slen (C : Core L V P) {s : Nat} (hs : VOcc L V s) : (siteComp L (VOcc L V) s).card = P.slen (V.sg s) := by
  classical
  have hg : V.sg s ∈ gids L := by
    rcases C.sgr s hs.1 with h | h
    · have := hs.2; omega
    · exact mem_gids.2 h
  rw [C.slen_eq_card hg, siteComp]
  apply congrArg
  refine Finset.filter_congr fun t ht => ?_
  have ht := Finset.mem_range.1 ht
  constructor
  · rintro ⟨h1, h2⟩
    rw [siteConn_iff vocc_lt hs h1 .right .right, ← C.conn _ _ (bondAt_lt hs.1 _) (bondAt_lt ht _), C.inc _ _ hs, C.inc _ _ h1] at h2
    exact h2.symm
  · intro h
    have h1 : VOcc L V t := ⟨ht, h ▸ hs.2⟩
    refine ⟨h1, ?_⟩
    rw [siteConn_iff vocc_lt hs h1 .right .right, ← C.conn _ _ (bondAt_lt hs.1 _) (bondAt_lt ht _), C.inc _ _ hs, C.inc _ _ h1, h]

theorem dir_get_inj : ∀ d d' : Fin 4, Dir.all.get d = Dir.all.get d' → d = d' := by
  simp [Dir.all, Fin.forall_fin_succ]

open Classical in
/-- Bonds of a cluster with both ends occupied. -/
theorem Core.handshake (hL : 2 ≤ L) (C : Core L V P) {g : Int} (hg : g ∈ gids L) (hn : 0 < P.slen g) :
    4 * P.slen g = P.len g + ((Finset.range (2 * (L * L))).filter fun b =>
      V.bg b = g ∧ VOcc L V (bondEnds L b).1 ∧ VOcc L V (bondEnds L b).2).card := by
  classical
  have hg0 := (mem_gids.1 hg).1
  obtain ⟨X, hX⟩ : ∃ X, X = (Finset.range (L * L)).filter fun s => V.sg s = g := ⟨_, rfl⟩
  obtain ⟨B, hB⟩ : ∃ B, B = (Finset.range (2 * (L * L))).filter fun b => V.bg b = g := ⟨_, rfl⟩
  have hXm : ∀ s, s ∈ X ↔ s < L * L ∧ V.sg s = g := by
    intro s; simp only [hX, Finset.mem_filter, Finset.mem_range]
  have hBm : ∀ b, b ∈ B ↔ b < 2 * (L * L) ∧ V.bg b = g := by
    intro b; simp only [hB, Finset.mem_filter, Finset.mem_range]
  have hocc : ∀ s, s ∈ X → VOcc L V s := fun s hs => ⟨((hXm s).1 hs).1, ((hXm s).1 hs).2 ▸ hg0⟩
  have hleft : ∑ s ∈ X, ∑ b ∈ B, (if Incident L s b then 1 else 0) = 4 * X.card := by
    rw [mul_comm, ← smul_eq_mul, ← Finset.sum_const]
    refine Finset.sum_congr rfl fun s hs => ?_
    have ho := hocc s hs
    rw [← Finset.card_filter]
    have : B.filter (fun b => Incident L s b) = Finset.univ.image (fun d : Fin 4 => bondAt L s (Dir.all.get d)) := by
      ext b
      rw [Finset.mem_filter, hBm, Finset.mem_image]
      constructor
      · rintro ⟨⟨h1, h2⟩, h3⟩
        obtain ⟨_, d, rfl⟩ := (incident_iff h1).1 h3
        cases d
        · exact ⟨0, Finset.mem_univ _, rfl⟩
        · exact ⟨1, Finset.mem_univ _, rfl⟩
        · exact ⟨2, Finset.mem_univ _, rfl⟩
        · exact ⟨3, Finset.mem_univ _, rfl⟩
      · rintro ⟨d, _, rfl⟩
        exact ⟨⟨bondAt_lt ho.1 _, by rw [C.inc s _ ho, ((hXm s).1 hs).2]⟩, incident_bondAt ho.1 _⟩
    rw [this, Finset.card_image_of_injective, Finset.card_univ, Fintype.card_fin]
    intro d d' h
    have := bondAt_inj hL ho.1 h
    exact dir_get_inj _ _ this
  have hends : ∀ b ∈ B, ∀ s, VOcc L V s → Incident L s b → s ∈ X := by
    intro b hb s hs hi
    obtain ⟨h1, h2⟩ := (hBm b).1 hb
    obtain ⟨h3, d, rfl⟩ := (incident_iff h1).1 hi
    exact (hXm s).2 ⟨h3, by rw [← h2, C.inc s d hs]⟩
  have hright : ∑ b ∈ B, ∑ s ∈ X, (if Incident L s b then 1 else 0) =
      ∑ b ∈ B, (1 + if VOcc L V (bondEnds L b).1 ∧ VOcc L V (bondEnds L b).2 then 1 else 0) := by
    refine Finset.sum_congr rfl fun b hb => ?_
    obtain ⟨h1, h2⟩ := (hBm b).1 hb
    have hne : (bondEnds L b).1 ≠ (bondEnds L b).2 := by
      unfold bondEnds
      split
      · next h => exact (nbr_ne hL h .right).symm
      · next h => exact (nbr_ne hL (by omega) .down).symm
    rw [← Finset.card_filter]
    have hsub : X.filter (fun s => Incident L s b) =
        ({(bondEnds L b).1, (bondEnds L b).2} : Finset Nat).filter (fun s => VOcc L V s) := by
      ext s
      rw [Finset.mem_filter, hXm, Finset.mem_filter, Finset.mem_insert, Finset.mem_singleton]
      exact ⟨fun ⟨x1, x2⟩ => ⟨x2, hocc s ((hXm s).2 x1)⟩, fun ⟨x1, x2⟩ => ⟨(hXm s).1 (hends b hb s x2 x1), x1⟩⟩
    have hone : VOcc L V (bondEnds L b).1 ∨ VOcc L V (bondEnds L b).2 := by
      obtain ⟨s, hs⟩ : ∃ s, s ∈ X := by
        rw [C.slen_eq_card hg, ← hX] at hn
        exact Finset.card_pos.1 hn
      have ho := hocc s hs
      have hc : BondConn L (VOcc L V) b (bondAt L s .right) := by
        rw [← C.conn _ _ h1 (bondAt_lt ho.1 _), C.inc s _ ho, h2, ((hXm s).1 hs).2]
      rcases hc.eq_or_occ with e | ⟨u, hu, hi⟩
      · rcases bondEnds_bondAt ho.1 .right with e' | e'
        · left; rw [e, e']; exact ho
        · right; rw [e, e']; exact ho
      · rcases hi with rfl | rfl
        · exact Or.inl hu
        · exact Or.inr hu
    rw [hsub]
    rw [Finset.filter_insert, Finset.filter_singleton]
    by_cases o1 : VOcc L V (bondEnds L b).1 <;> by_cases o2 : VOcc L V (bondEnds L b).2
    · rw [if_pos o1, if_pos o2, if_pos ⟨o1, o2⟩, Finset.card_pair hne]
    · rw [if_pos o1, if_neg o2, if_neg (fun h => o2 h.2)]; rfl
    · rw [if_neg o1, if_pos o2, if_neg (fun h => o1 h.1)]; rfl
    · rcases hone with h | h
      · exact absurd h o1
      · exact absurd h o2
  rw [C.slen_eq_card hg, C.len_eq_card hg, ← hX, ← hB, ← hleft, Finset.sum_comm, hright, Finset.sum_add_distrib, Finset.sum_const,
    smul_eq_mul, mul_one, ← Finset.card_filter, hB, Finset.filter_filter]

/-- Critical counts. -/
def PcInv (L : Nat) (A : Abs α) : Prop :=
  A.aw = true → ∃ n b, A.pcs = some n ∧ A.pcb = some b ∧ L ≤ n ∧ n ≤ A.pco ∧ A.pco ≤ A.count ∧ 2 * n ≤ b ∧ b ≤ 3 * n + 1

theorem PcInv.step {A A' : Abs α} (hA : AReach env L A) (h : PcInv L A) (hs : AStep env L A A') : PcInv L A' := by
  have hA' := hA.step hs
  cases hs with
  | place _ _ _ _ =>
    intro ha
    obtain ⟨n, b, h1, h2, h3, h4, h5, h6⟩ := h ha
    exact ⟨n, b, h1, h2, h3, h4, Nat.le_succ_of_le h5, h6⟩
  | tick _ => exact h
  | @detect k ha hsel h0 hH =>
    intro _
    have C := hA.inv.core
    have hk := hA.inv.selLt k hsel
    have ho : VOcc L A.V k := ⟨hk, h0⟩
    have hg : A.V.sg k ∈ gids L := by
      rcases C.sgr k hk with h | h
      · omega
      · exact mem_gids.2 h
    obtain ⟨s, h1, h2, h3⟩ := hA'.wrap.on rfl
    replace h1 : VOcc L A.V s := h1
    replace h2 : A.V.sg s = A.V.sg k := h2
    replace h3 : WrapsAt L (VOcc L A.V) s := h3
    have e : (siteComp L (VOcc L A.V) s).card = A.P.slen (A.V.sg k) := by rw [C.siteComp_slen h1, h2]
    refine ⟨A.P.slen (A.V.sg k), A.P.len (A.V.sg k), rfl, rfl, ?_, ?_, le_rfl, C.two_mul_slen_le hg, hA.size _ hg⟩
    · rw [← e]; exact h3.card_le vocc_lt
    · show _ ≤ A.count
      rw [← e, hA.count]
      unfold siteComp occCount
      apply Finset.card_le_card
      intro t ht
      simp only [Finset.mem_filter, Finset.mem_range] at ht ⊢
      exact ⟨ht.1, ht.2.1⟩
  | reselect _ _ => exact h

theorem AReach.pc {A : Abs α} (h : AReach env L A) : PcInv L A := by
  induction h with
  | init _ => intro h; cases h
  | step h hs ih => exact ih.step h hs

end SqPerc
