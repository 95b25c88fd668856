import Verif.Proof.Counts
import Mathlib.Algebra.Ring.Divisibility.Basic
import Mathlib.Algebra.Ring.Int.Defs
import Mathlib.Tactic.Ring
/-
Relative indices: the difference of the relative indices of two sites of one cluster is the displacement of an occupied walk.
-/
namespace SqPerc

variable {α : Type} {L k : Nat} {V V' : LV} {P P' : PV} {r : Int} {env : Env α}

/-- An index as a pair. -/
def Idx.pr (i : Idx) : Int × Int := (i.c1, i.c2)

/-- Difference of relative indices, from `s` to `t`. -/
def LV.dr (V : LV) (s t : Nat) : Int × Int := (V.rel t).pr - (V.rel s).pr

theorem LV.dr_self (V : LV) (s : Nat) : V.dr s s = 0 := by simp [LV.dr]

theorem LV.dr_add (V : LV) (s t u : Nat) : V.dr s t + V.dr t u = V.dr s u := by
  unfold LV.dr; abel

theorem LV.dr_neg (V : LV) (s t : Nat) : -V.dr s t = V.dr t s := by
  unfold LV.dr; abel

theorem Idx.pr_sub (a b : Idx) : (a.sub b).pr = a.pr - b.pr := rfl

/-- An occupied site lies in the cluster of a bond of `k` only if the end of that bond other than `k` is occupied. -/
theorem Core.nbr_occ (C : Core L V P) (hk : k < L * L) (hu : V.sg k = -1) {s : Nat} (hs : VOcc L V s) {d : Dir}
    (h : V.bg (bondAt L k d) = V.sg s) : VOcc L V (nbr L k d) := by
  have hb : bondAt L k d < 2 * (L * L) := bondAt_lt hk d
  have hsb : bondAt L s .right < 2 * (L * L) := bondAt_lt hs.1 .right
  have hinc : ∃ u, VOcc L V u ∧ Incident L u (bondAt L k d) := by
    have : BondConn L (VOcc L V) (bondAt L k d) (bondAt L s .right) := by
      rw [← C.conn _ _ hb hsb, C.inc s _ hs, h]
    rcases this.eq_or_occ with h' | h'
    · exact ⟨s, hs, h' ▸ incident_bondAt hs.1 .right⟩
    · exact h'
  obtain ⟨u, hu', hi⟩ := hinc
  have : u = k ∨ u = nbr L k d := by
    rcases bondEnds_bondAt hk d with e | e <;> rcases hi with h2 | h2 <;> rw [e] at h2 <;> simp at h2 <;> simp [h2]
  rcases this with rfl | rfl
  · have := hu'.2; omega
  · exact hu'

namespace PlaceEffect

theorem dr_eq (E : PlaceEffect L k r V V' P P') {s t : Nat} (hs : VOcc L V s) (ht : VOcc L V t) (h : V.sg s = V.sg t) :
    V'.dr s t = V.dr s t := by
  have := E.relTrans s hs.1 t ht.1 hs.2 h.symm
  have := congrArg Idx.pr this
  rw [Idx.pr_sub, Idx.pr_sub] at this
  exact this

theorem sg_eq_r (E : PlaceEffect L k r V V' P P') {s : Nat} (hs : s < L * L) (hsk : s ≠ k) (h : V'.sg s = r) : Adj L V k (V.sg s) := by
  by_contra hn
  rw [E.sgFar s hs hsk hn] at h
  exact hn (h ▸ E.adj)

/-- A site of the merged cluster and the placed site. -/
theorem toRoot (E : PlaceEffect L k r V V' P P') (C : Core L V P) (hk : k < L * L) (hu : V.sg k = -1) {s : Nat}
    (hs : VOcc L V' s) (h : V'.sg s = r) :
    s = k ∨ ∃ d, VOcc L V (nbr L k d) ∧ VOcc L V s ∧ V.sg (nbr L k d) = V.sg s ∧
      V'.dr k (nbr L k d) = (cdiff L k (nbr L k d)).pr ∧ V'.dr (nbr L k d) s = V.dr (nbr L k d) s := by
  by_cases hsk : s = k
  · exact Or.inl hsk
  right
  have hso : VOcc L V s := by
    rcases (E.occ_iff C hk s).1 hs with h' | h'
    · exact h'
    · exact absurd h' hsk
  obtain ⟨d0, hd0⟩ := E.sg_eq_r hs.1 hsk h
  obtain ⟨d, hd, han⟩ := E.anchor d0
  have ho := C.nbr_occ hk hu hso (hd.trans hd0)
  have hg : V.sg (nbr L k d) = V.sg s := by
    rw [← C.inc _ d.opp ho, bondAt_nbr_opp hk, hd, hd0]
  refine ⟨d, ho, hso, hg, ?_, E.dr_eq ho hso hg⟩
  have := congrArg Idx.pr (han ho.2)
  rw [Idx.pr_sub] at this
  exact this

/-- Two sites of one cluster after the placement. -/
theorem pair (E : PlaceEffect L k r V V' P P') (C : Core L V P) (hk : k < L * L) {s t : Nat} (hs : VOcc L V' s) (ht : VOcc L V' t)
    (h : V'.sg s = V'.sg t) :
    (VOcc L V s ∧ VOcc L V t ∧ V.sg s = V.sg t ∧ V'.dr s t = V.dr s t) ∨ (V'.sg s = r ∧ V'.sg t = r) := by
  by_cases hr : V'.sg s = r
  · exact Or.inr ⟨hr, h ▸ hr⟩
  left
  have key : ∀ u, VOcc L V' u → V'.sg u ≠ r → VOcc L V u ∧ V'.sg u = V.sg u := by
    intro u hu hur
    have huk : u ≠ k := by rintro rfl; exact hur E.sgSelf
    have hn : ¬ Adj L V k (V.sg u) := fun ha => hur (E.sgAdj u hu.1 ha)
    refine ⟨?_, E.sgFar u hu.1 huk hn⟩
    rcases (E.occ_iff C hk u).1 hu with h' | h'
    · exact h'
    · exact absurd h' huk
  obtain ⟨h1, h2⟩ := key s hs hr
  obtain ⟨h3, h4⟩ := key t ht (by rwa [← h])
  have h5 : V.sg s = V.sg t := by rw [← h2, ← h4, h]
  exact ⟨h1, h3, h5, E.dr_eq h1 h3 h5⟩

end PlaceEffect

/-! ### Differences of neighbours -/

theorem corr_one {x : Int} (h : x.natAbs ≤ 1) : corr x = x := by
  unfold corr; rw [if_neg (by omega)]

theorem cdiff_pr (L a b : Nat) : (cdiff L a b).pr =
    (corr (((b / L : Nat) : Int) - ((a / L : Nat) : Int)), corr (((b % L : Nat) : Int) - ((a % L : Nat) : Int))) := by
  unfold cdiff
  rw [wrappingCorrection_eq]; rfl

/-- For `L ≥ 3` the corrected index difference of neighbours is the unit step. -/
theorem cdiff_nbr (hL : 3 ≤ L) (hk : k < L * L) (d : Dir) : (cdiff L k (nbr L k d)).pr = d.vec := by
  obtain ⟨r, c, hr, hc, rfl⟩ := exists_rc hk
  rw [cdiff_pr, mul_add_div_L hc, mul_add_mod_L hc]
  cases d
  · rw [nbr_right_rc hc, mul_add_div_L (succ_mod_lt hc), mul_add_mod_L (succ_mod_lt hc), succ_mod_cases hc]
    refine Prod.ext ?_ ?_
    · show corr _ = 0
      rw [corr_one (by omega)]; omega
    · show corr _ = 1
      unfold corr; split <;> split <;> (try split) <;> omega
  · rw [nbr_down_rc hc, mul_add_div_L hc, mul_add_mod_L hc, succ_mod_cases hr]
    refine Prod.ext ?_ ?_
    · show corr _ = 1
      unfold corr; split <;> split <;> (try split) <;> omega
    · show corr _ = 0
      rw [corr_one (by omega)]; omega
  · rw [nbr_left_rc hc, mul_add_div_L (pred_mod_lt hc), mul_add_mod_L (pred_mod_lt hc), pred_mod_cases hc]
    refine Prod.ext ?_ ?_
    · show corr _ = 0
      rw [corr_one (by omega)]; omega
    · show corr _ = -1
      unfold corr; split <;> split <;> (try split) <;> omega
  · rw [nbr_up_rc hc, mul_add_div_L hc, mul_add_mod_L hc, pred_mod_cases hr]
    refine Prod.ext ?_ ?_
    · show corr _ = -1
      unfold corr; split <;> split <;> (try split) <;> omega
    · show corr _ = 0
      rw [corr_one (by omega)]; omega

/-- For `L ≤ 2` the corrected index difference is the index difference. -/
theorem cdiff_small (hL : L ≤ 2) {s t : Nat} (hs : s < L * L) (ht : t < L * L) : (cdiff L s t).pr = (sidx L t).pr - (sidx L s).pr := by
  obtain ⟨r, c, hr, hc, rfl⟩ := exists_rc hs
  obtain ⟨r', c', hr', hc', rfl⟩ := exists_rc ht
  rw [cdiff_pr, corr_one, corr_one]
  · rfl
  · rw [mul_add_mod_L hc, mul_add_mod_L hc']; omega
  · rw [mul_add_div_L hc, mul_add_div_L hc']; omega

/-! ### The lift -/

/-- Relative indices describe walks. -/
def Lift (L : Nat) (V : LV) : Prop :=
  ∀ s t, VOcc L V s → VOcc L V t → V.sg s = V.sg t → Walk L (VOcc L V) s t (V.dr s t)

theorem Lift.place (hL : 3 ≤ L) (E : PlaceEffect L k r V V' P P') (C : Core L V P) (hk : k < L * L) (hu : V.sg k = -1) (h : Lift L V) :
    Lift L V' := by
  have hmono : ∀ s, VOcc L V s → VOcc L V' s := fun s hs => (E.occ_iff C hk s).2 (Or.inl hs)
  have hko : VOcc L V' k := (E.occ_iff C hk k).2 (Or.inr rfl)
  have key : ∀ s, VOcc L V' s → V'.sg s = r → Walk L (VOcc L V') k s (V'.dr k s) := by
    intro s hs hr
    rcases E.toRoot C hk hu hs hr with rfl | ⟨d, h1, h2, h3, h4, h5⟩
    · rw [LV.dr_self]; exact .nil hs
    · have w1 := Walk.step (occ := VOcc L V') d hko (hmono _ h1)
      have w2 := (h _ s h1 h2 h3).mono hmono
      have := w1.append w2
      rw [← cdiff_nbr hL hk d, ← h4, ← h5, LV.dr_add] at this
      exact this
  intro s t hs ht hst
  rcases E.pair C hk hs ht hst with ⟨h1, h2, h3, h4⟩ | ⟨h1, h2⟩
  · rw [h4]; exact (h s t h1 h2 h3).mono hmono
  · have := ((key s hs h1).reverse vocc_lt).append (key t ht h2)
    rwa [LV.dr_neg, LV.dr_add] at this

/-- For `L ≤ 2` relative indices are the indices up to translation. -/
def Flat (L : Nat) (V : LV) : Prop :=
  ∀ s t, VOcc L V s → VOcc L V t → V.sg s = V.sg t → V.dr s t = (sidx L t).pr - (sidx L s).pr

theorem Flat.place (hL : L ≤ 2) (E : PlaceEffect L k r V V' P P') (C : Core L V P) (hk : k < L * L) (hu : V.sg k = -1) (h : Flat L V) :
    Flat L V' := by
  have key : ∀ s, VOcc L V' s → V'.sg s = r → V'.dr k s = (sidx L s).pr - (sidx L k).pr := by
    intro s hs hr
    rcases E.toRoot C hk hu hs hr with rfl | ⟨d, h1, h2, h3, h4, h5⟩
    · rw [LV.dr_self]; abel
    · rw [← LV.dr_add _ _ (nbr L k d), h4, h5, h _ s h1 h2 h3, cdiff_small hL hk h1.1]; abel
  intro s t hs ht hst
  rcases E.pair C hk hs ht hst with ⟨h1, h2, h3, h4⟩ | ⟨h1, h2⟩
  · rw [h4]; exact h s t h1 h2 h3
  · rw [← LV.dr_add _ _ k, ← LV.dr_neg, key s hs h1, key t ht h2]; abel

theorem Flat.not_hit (hL : L ≤ 2) (h : Flat L V) (hk : VOcc L V k) : ¬ Hit L V k := by
  rintro ⟨d, hd, hb⟩
  have hn : VOcc L V (nbr L k d) := ⟨nbr_lt hk.1 d, by rw [hd]; exact hk.2⟩
  have := h k _ hk hn hd.symm
  have h1 := congrArg Prod.fst this
  have h2 := congrArg Prod.snd this
  obtain ⟨r, c, hr, hc, e⟩ := exists_rc hk.1
  obtain ⟨r', c', hr', hc', e'⟩ := exists_rc hn.1
  have h1 : (V.rel (nbr L k d)).c1 - (V.rel k).c1 = ((nbr L k d / L : Nat) : Int) - ((k / L : Nat) : Int) := h1
  have h2 : (V.rel (nbr L k d)).c2 - (V.rel k).c2 = ((nbr L k d % L : Nat) : Int) - ((k % L : Nat) : Int) := h2
  rw [e'] at h1 h2 hb
  rw [e, mul_add_div_L hc, mul_add_div_L hc'] at h1
  rw [e, mul_add_mod_L hc, mul_add_mod_L hc'] at h2
  rw [e] at hb
  omega

/-! ### Displacements modulo L -/

theorem dvd_of_eq' {a x y : Int} (h : a ∣ x) (e : y = x) : a ∣ y := e ▸ h

/-- The displacement of a walk is congruent to the difference of the indices. -/
theorem walk_mod {occ : Nat → Prop} (hocc : ∀ s, occ s → s < L * L) {s t : Nat} {w : Int × Int} (h : Walk L occ s t w) :
    ((L : Int) ∣ w.1 - (((t / L : Nat) : Int) - ((s / L : Nat) : Int))) ∧
    ((L : Int) ∣ w.2 - (((t % L : Nat) : Int) - ((s % L : Nat) : Int))) := by
  induction h with
  | nil _ => simp
  | @snoc t w d h ho ih =>
    obtain ⟨r, c, hr, hc, e⟩ := exists_rc (hocc t h.occ_right)
    have step : ((L : Int) ∣ d.vec.1 - (((nbr L t d / L : Nat) : Int) - ((t / L : Nat) : Int))) ∧
        ((L : Int) ∣ d.vec.2 - (((nbr L t d % L : Nat) : Int) - ((t % L : Nat) : Int))) := by
      subst e
      rw [mul_add_div_L hc, mul_add_mod_L hc]
      cases d
      · rw [nbr_right_rc hc, mul_add_div_L (succ_mod_lt hc), mul_add_mod_L (succ_mod_lt hc), succ_mod_cases hc]
        refine ⟨⟨0, by simp [Dir.vec]⟩, ?_⟩
        simp only [Dir.vec]
        split
        · exact ⟨1, by push_cast; omega⟩
        · exact ⟨0, by push_cast; omega⟩
      · rw [nbr_down_rc hc, mul_add_div_L hc, mul_add_mod_L hc, succ_mod_cases hr]
        refine ⟨?_, ⟨0, by simp [Dir.vec]⟩⟩
        simp only [Dir.vec]
        split
        · exact ⟨1, by push_cast; omega⟩
        · exact ⟨0, by push_cast; omega⟩
      · rw [nbr_left_rc hc, mul_add_div_L (pred_mod_lt hc), mul_add_mod_L (pred_mod_lt hc), pred_mod_cases hc]
        refine ⟨⟨0, by simp [Dir.vec]⟩, ?_⟩
        simp only [Dir.vec]
        split
        · exact ⟨-1, by omega⟩
        · exact ⟨0, by omega⟩
      · rw [nbr_up_rc hc, mul_add_div_L hc, mul_add_mod_L hc, pred_mod_cases hr]
        refine ⟨?_, ⟨0, by simp [Dir.vec]⟩⟩
        simp only [Dir.vec]
        split
        · exact ⟨-1, by omega⟩
        · exact ⟨0, by omega⟩
    constructor
    · have := dvd_add ih.1 step.1
      rw [Prod.fst_add]
      exact dvd_of_eq' this (by ring)
    · have := dvd_add ih.2 step.2
      rw [Prod.snd_add]
      exact dvd_of_eq' this (by ring)

theorem eq_of_mod {x y : Int} (hL : 3 ≤ L) (hx : x.natAbs ≤ 1) (hy : y.natAbs ≤ 1) (h : (L : Int) ∣ x - y) : x = y := by
  obtain ⟨q, hq⟩ := h
  have hL' : (3 : Int) ≤ L := by exact_mod_cast hL
  have hq0 : q = 0 := by
    rcases lt_trichotomy q 0 with h | h | h
    · have : (L : Int) * q ≤ (L : Int) * (-1) := mul_le_mul_of_nonneg_left (by omega) (by omega)
      omega
    · exact h
    · have : (L : Int) * 1 ≤ (L : Int) * q := mul_le_mul_of_nonneg_left (by omega) (by omega)
      omega
  rw [hq0] at hq
  omega

/-! ### Consistency -/

/-- Along every occupied edge the relative index changes by the unit step. -/
def Consistent (L : Nat) (V : LV) : Prop :=
  ∀ s d, VOcc L V s → VOcc L V (nbr L s d) → V.dr s (nbr L s d) = d.vec

theorem Consistent.not_wraps (h : Consistent L V) : ¬ Wraps L (VOcc L V) := by
  rintro ⟨s, v, hv, hw⟩
  have := hw.eq_potential (fun t => (V.rel t).pr) (fun t d h1 h2 => h t d h1 h2)
  apply hv
  rw [this]; abel

theorem Dir.vec_le (d : Dir) : d.vec.1.natAbs ≤ 1 ∧ d.vec.2.natAbs ≤ 1 := by cases d <;> decide

/-- Neighbouring occupied sites are in the same cluster. -/
theorem Core.sg_nbr (C : Core L V P) {s : Nat} {d : Dir} (hs : VOcc L V s) (hn : VOcc L V (nbr L s d)) : V.sg (nbr L s d) = V.sg s := by
  rw [← C.inc s d hs, ← C.inc _ d.opp hn, bondAt_nbr_opp hs.1]

/-- A pair of neighbours whose relative indices are at most one apart is consistent. -/
theorem Lift.unit (hL : 3 ≤ L) (h : Lift L V) (C : Core L V P) {s : Nat} {d : Dir} (hs : VOcc L V s) (hn : VOcc L V (nbr L s d))
    (h1 : (V.dr s (nbr L s d)).1.natAbs ≤ 1) (h2 : (V.dr s (nbr L s d)).2.natAbs ≤ 1) : V.dr s (nbr L s d) = d.vec := by
  have w1 := h s _ hs hn (C.sg_nbr hs hn).symm
  have w2 := Walk.step (occ := VOcc L V) d hs hn
  have m1 := walk_mod vocc_lt w1
  have m2 := walk_mod vocc_lt w2
  refine Prod.ext ?_ ?_
  · refine eq_of_mod hL h1 d.vec_le.1 ?_
    have := dvd_sub m1.1 m2.1
    exact dvd_of_eq' this (by ring)
  · refine eq_of_mod hL h2 d.vec_le.2 ?_
    have := dvd_sub m1.2 m2.2
    exact dvd_of_eq' this (by ring)

theorem not_hit_iff : ¬ Hit L V k ↔ ∀ d, V.sg (nbr L k d) = V.sg k →
    (V.dr k (nbr L k d)).1.natAbs ≤ 1 ∧ (V.dr k (nbr L k d)).2.natAbs ≤ 1 := by
  unfold Hit
  push Not
  refine forall_congr' fun d => imp_congr_right fun _ => ?_
  show _ ↔ ((V.rel (nbr L k d)).c1 - (V.rel k).c1).natAbs ≤ 1 ∧ ((V.rel (nbr L k d)).c2 - (V.rel k).c2).natAbs ≤ 1
  omega

/-- Placing a site keeps consistency if no wrapping is detected at it. -/
theorem Consistent.place (hL : 3 ≤ L) (E : PlaceEffect L k r V V' P P') (C : Core L V P) (hk : k < L * L) (hu : V.sg k = -1)
    (h : Consistent L V) (hl : Lift L V) (hn : ¬ Hit L V' k) : Consistent L V' := by
  have C' := E.core C hk hu
  have hl' := Lift.place hL E C hk hu hl
  rw [not_hit_iff] at hn
  have hk' : ∀ d, VOcc L V' (nbr L k d) → V'.dr k (nbr L k d) = d.vec := by
    intro d ho
    have hko : VOcc L V' k := (E.occ_iff C hk k).2 (Or.inr rfl)
    obtain ⟨h1, h2⟩ := hn d (C'.sg_nbr hko ho)
    exact hl'.unit hL C' hko ho h1 h2
  intro s d hs hd
  by_cases hsk : s = k
  · subst hsk; exact hk' d hd
  by_cases hdk : nbr L s d = k
  · have : nbr L k d.opp = s := by rw [← hdk, nbr_opp hs.1]
    have h1 := hk' d.opp (by rw [this]; exact hs)
    rw [this, Dir.vec_opp] at h1
    rw [hdk, ← LV.dr_neg, h1, neg_neg]
  · have h1 : VOcc L V s := ((E.occ_iff C hk s).1 hs).resolve_right hsk
    have h2 : VOcc L V (nbr L s d) := ((E.occ_iff C hk _).1 hd).resolve_right hdk
    rw [E.dr_eq h1 h2 (C.sg_nbr h1 h2).symm]
    exact h s d h1 h2

/-- A detected wrap is a wrap. -/
theorem Lift.wraps_of_hit (h : Lift L V) (hk : VOcc L V k) (hh : Hit L V k) : WrapsAt L (VOcc L V) k := by
  obtain ⟨d, hd, hb⟩ := hh
  have hn : VOcc L V (nbr L k d) := ⟨nbr_lt hk.1 d, by rw [hd]; exact hk.2⟩
  have w1 := h k _ hk hn hd.symm
  have w2 := Walk.step (occ := VOcc L V) d.opp hn (by rw [nbr_opp hk.1]; exact hk)
  rw [nbr_opp hk.1] at w2
  refine ⟨_, ?_, w1.append w2⟩
  intro h0
  have h1 := congrArg Prod.fst h0
  have h2 := congrArg Prod.snd h0
  have v := d.opp.vec_le
  have h1 : (V.rel (nbr L k d)).c1 - (V.rel k).c1 + d.opp.vec.1 = 0 := h1
  have h2 : (V.rel (nbr L k d)).c2 - (V.rel k).c2 + d.opp.vec.2 = 0 := h2
  omega

theorem WrapsAt.mono {occ occ' : Nat → Prop} (hm : ∀ s, occ s → occ' s) {s : Nat} (h : WrapsAt L occ s) : WrapsAt L occ' s := by
  obtain ⟨v, hv, hw⟩ := h
  exact ⟨v, hv, hw.mono hm⟩

theorem Wraps.mono {occ occ' : Nat → Prop} (hm : ∀ s, occ s → occ' s) (h : Wraps L occ) : Wraps L occ' := by
  obtain ⟨s, v, hv, hw⟩ := h
  exact ⟨s, v, hv, hw.mono hm⟩

theorem WrapsAt.wraps {occ : Nat → Prop} {s : Nat} (h : WrapsAt L occ s) : Wraps L occ := by
  obtain ⟨v, hv, hw⟩ := h
  exact ⟨s, v, hv, hw⟩

/-- On the fully occupied lattice the rows wrap. -/
theorem full_wraps (hL : 0 < L) {occ : Nat → Prop} (h : ∀ s < L * L, occ s) : Wraps L occ := by
  have h0 : 0 < L * L := Nat.mul_pos hL hL
  have key : ∀ c, c < L → Walk L occ 0 c (0, (c : Int)) := by
    intro c
    induction c with
    | zero => intro _; exact .nil (h 0 h0)
    | succ c ih =>
      intro hc
      have e : nbr L c .right = c + 1 := by
        have := nbr_right_rc (L := L) (r := 0) (c := c) (by omega)
        rw [Nat.zero_mul, Nat.zero_add, Nat.zero_add, Nat.mod_eq_of_lt hc] at this
        exact this
      have hlt : c + 1 < L * L := lt_of_lt_of_le hc (Nat.le_mul_of_pos_left L hL)
      have := Walk.snoc .right (ih (by omega)) (by rw [e]; exact h _ hlt)
      rw [e] at this
      have ev : ((0, (c : Int)) + Dir.right.vec : Int × Int) = (0, ((c + 1 : Nat) : Int)) := by
        simp [Dir.vec]
      rwa [ev] at this
  have e : nbr L (L - 1) .right = 0 := by
    have := nbr_right_rc (L := L) (r := 0) (c := L - 1) (by omega)
    rw [Nat.zero_mul, Nat.zero_add, Nat.zero_add, Nat.sub_add_cancel hL, Nat.mod_self] at this
    exact this
  have := Walk.snoc .right (key (L - 1) (by omega)) (by rw [e]; exact h 0 h0)
  rw [e] at this
  refine ⟨0, _, ?_, this⟩
  intro h0
  have := congrArg Prod.snd h0
  simp [Dir.vec] at this
  omega

end SqPerc
