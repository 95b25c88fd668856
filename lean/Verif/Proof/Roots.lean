import Verif.Proof.Wrap
/-
Every cluster of occupied sites has exactly one site with relative index (0, 0).
-/
namespace SqPerc

variable {α : Type} {L k : Nat} {V V' : LV} {P P' : PV} {r : Int} {env : Env α}

/-- Every occupied site has a site with relative index (0, 0) in its cluster. -/
def Rooted (L : Nat) (V : LV) : Prop := ∀ s, VOcc L V s → ∃ t, VOcc L V t ∧ V.sg t = V.sg s ∧ V.rel t = ⟨0, 0⟩

/-- A cluster with two bonds has an occupied site. -/
theorem Core.exists_site (C : Core L V P) {g : Int} (h0 : 0 ≤ g) (h1 : g < (2 * (L * L) : Nat)) (h2 : 2 ≤ (P.cb g).length) :
    ∃ s, VOcc L V s ∧ V.sg s = g := by
  obtain ⟨a, b, l, hl⟩ : ∃ a b l, P.cb g = a :: b :: l := by
    match h : P.cb g with
    | [] => rw [h] at h2; simp at h2
    | [_] => rw [h] at h2; simp at h2
    | a :: b :: l => exact ⟨a, b, l, rfl⟩
  have hab : a ≠ b := by
    have := C.ndb g h0 h1
    rw [hl, List.nodup_cons] at this
    rintro rfl
    exact this.1 (by simp)
  obtain ⟨ha, ga⟩ := (C.memb g h0 h1 a).1 (by rw [hl]; simp)
  obtain ⟨hb, gb⟩ := (C.memb g h0 h1 b).1 (by rw [hl]; simp)
  have hc := (C.conn a b ha hb).1 (ga.trans gb.symm)
  rcases hc.eq_or_occ with e | ⟨u, hu, hi⟩
  · exact absurd e hab
  · obtain ⟨_, d, rfl⟩ := (incident_iff ha).1 hi
    exact ⟨u, hu, by rw [← C.inc u d hu, ga]⟩

/-- The cluster of an occupied site has at least two bonds, from length two on. -/
theorem Core.two_bonds (hL : 2 ≤ L) (C : Core L V P) {s : Nat} (hs : VOcc L V s) : 2 ≤ (P.cb (V.sg s)).length := by
  obtain ⟨h0, h1⟩ := C.bgr _ (bondAt_lt hs.1 .right)
  rw [C.inc s .right hs] at h0 h1
  have m1 := (C.memb _ h0 h1 _).2 ⟨bondAt_lt hs.1 .right, C.inc s .right hs⟩
  have m2 := (C.memb _ h0 h1 _).2 ⟨bondAt_lt hs.1 .left, C.inc s .left hs⟩
  have hne : bondAt L s .right ≠ bondAt L s .left := fun e => by cases bondAt_inj hL hs.1 e
  match h : P.cb (V.sg s) with
  | [] => rw [h] at m1; simp at m1
  | [x] =>
    rw [h] at m1 m2
    exact absurd ((List.mem_singleton.1 m1).trans (List.mem_singleton.1 m2).symm) hne
  | a :: b :: l => simp

/-- The cluster that takes the placed site has an occupied site, if some neighbour of the placed site is occupied. -/
theorem PlaceEffect.root_site {aw : Bool} {wid : Int} (E : PlaceEffect L k r V V' P P') (C : Core L V P) (hk : k < L * L) (hu : V.sg k = -1)
    (hr : RootRule L V P k aw wid r) (hw : aw = true → ∃ s, VOcc L V s ∧ V.sg s = wid) {d : Dir} (hd : VOcc L V (nbr L k d)) :
    ∃ s, VOcc L V s ∧ V.sg s = r := by
  have hL : 2 ≤ L := by
    by_contra hc
    have h1 : nbr L k d = k := by
      have := hd.1
      have : L * L ≤ 1 := by
        have : L = 0 ∨ L = 1 := by omega
        rcases this with rfl | rfl <;> simp
      omega
    rw [h1] at hd
    have := hd.2
    omega
  by_cases hc : aw = true ∧ Adj L V k wid
  · rw [hr.1 hc.1 hc.2]
    exact hw hc.1
  · obtain ⟨h0, h1⟩ := E.r_range C hk
    refine C.exists_site h0 h1 (le_trans ?_ (hr.2 hc (V.sg (nbr L k d)) ⟨d, ?_⟩))
    · exact C.two_bonds hL hd
    · exact (C.nbr_sg hk d hd.2).symm

theorem Rooted.place {aw : Bool} {wid : Int} (E : PlaceEffect L k r V V' P P') (C : Core L V P) (hk : k < L * L) (hu : V.sg k = -1)
    (hr : RootRule L V P k aw wid r) (hw : aw = true → ∃ s, VOcc L V s ∧ V.sg s = wid) (h : Rooted L V) : Rooted L V' := by
  have hko : VOcc L V' k := (E.occ_iff C hk k).2 (Or.inr rfl)
  -- the root cluster has a root afterwards
  have key : ∃ t, VOcc L V' t ∧ V'.sg t = r ∧ V'.rel t = ⟨0, 0⟩ := by
    by_cases hn : ∀ d, V.sg (nbr L k d) < 0
    · exact ⟨k, hko, E.sgSelf, E.relNew hn⟩
    · obtain ⟨d, hd⟩ : ∃ d, VOcc L V (nbr L k d) := by
        by_contra hc
        exact hn fun d => by
          by_contra h'
          exact hc ⟨d, nbr_lt hk d, by omega⟩
      obtain ⟨s, hs, hsr⟩ := E.root_site C hk hu hr hw hd
      obtain ⟨t, ht, hts, ht0⟩ := h s hs
      have htr : V.sg t = r := hts.trans hsr
      exact ⟨t, (E.occ_iff C hk t).2 (Or.inl ht), E.sgAdj t ht.1 (htr ▸ E.adj), (E.relRoot t ht.1 htr).trans ht0⟩
  intro s hs
  by_cases hsr : V'.sg s = r
  · obtain ⟨t, h1, h2, h3⟩ := key
    exact ⟨t, h1, h2.trans hsr.symm, h3⟩
  · have hsk : s ≠ k := by rintro rfl; exact hsr E.sgSelf
    have hso : VOcc L V s := ((E.occ_iff C hk s).1 hs).resolve_right hsk
    have hn : ¬ Adj L V k (V.sg s) := fun ha => hsr (E.sgAdj s hs.1 ha)
    obtain ⟨t, ht, hts, ht0⟩ := h s hso
    have htk : t ≠ k := by rintro rfl; have := ht.2; omega
    have hnt : ¬ Adj L V k (V.sg t) := by rw [hts]; exact hn
    refine ⟨t, (E.occ_iff C hk t).2 (Or.inl ht), ?_, (E.relFar t ht.1 htk hnt).trans ht0⟩
    rw [E.sgFar t ht.1 htk hnt, E.sgFar s hs.1 hsk hn, hts]

theorem AReach.rooted {A : Abs α} (h : AReach env L A) : Rooted L A.V := by
  induction h with
  | init _ => rintro s ⟨_, h⟩; exact absurd h (show ¬ (0 : Int) ≤ -1 by decide)
  | @step A A' h hs ih =>
    cases hs with
    | place hk hu E hr =>
      refine ih.place E h.inv.core hk hu hr fun ha => ?_
      obtain ⟨s, h1, h2, _⟩ := h.wrap.on ha
      exact ⟨s, h1, h2⟩
    | @tick V1 h' =>
      show Rooted L V1
      unfold Rooted
      rw [h'.vocc, h'.1, h'.2.1]
      exact ih
    | detect _ _ _ _ => exact ih
    | reselect _ _ => exact ih

/-- A cluster without bonds has no sites and the ids -1. -/
def Cleared (L : Nat) (P : PV) : Prop := ∀ g : Int, 0 ≤ g → g < (2 * (L * L) : Nat) → P.cb g = [] → P.cs g = [] ∧ P.cg g = -1 ∧ P.ci g = -1

theorem AReach.cleared {A : Abs α} (h : AReach env L A) : Cleared L A.P := by
  induction h with
  | init _ =>
    intro g h0 h1 h
    have := (core_init L).memb g h0 h1 g.toNat
    have hm : g.toNat ∈ (PV.init (2 * (L * L))).cb g := this.2 ⟨by omega, by show ((g.toNat : Nat) : Int) = g; omega⟩
    rw [show (PV.init (2 * (L * L))).cb g = [] from h] at hm
    cases hm
  | @step A A' h hs ih =>
    cases hs with
    | @place k r V' P' hk hu E hr =>
      intro g h0 h1 hg
      have hg : P'.cb g = [] := hg
      show P'.cs g = [] ∧ P'.cg g = -1 ∧ P'.ci g = -1
      by_cases ha : Adj L A.V k g
      · by_cases hgr : g = r
        · obtain ⟨l, _, _, e⟩ := E.cbRoot
          rw [hgr, e] at hg
          exact absurd (List.append_eq_nil_iff.1 hg).1 (h.inv.core.adj_nonempty hk E.adj)
        · exact ⟨E.csCleared g ha hgr, E.idCleared g ha hgr⟩
      · rw [E.csKept g ha, E.cgKept g (Or.inl ha), E.ciKept g (Or.inl ha)]
        rw [E.cbKept g ha] at hg
        exact ih g h0 h1 hg
    | tick _ => exact ih
    | detect _ _ _ _ => exact ih
    | reselect _ _ => exact ih

/-- Sites of one cluster with the same relative index are equal. -/
theorem AReach.rel_inj {A : Abs α} (h : AReach env L A) {s t : Nat} (hs : VOcc L A.V s) (ht : VOcc L A.V t) (hg : A.V.sg s = A.V.sg t)
    (he : A.V.rel s = A.V.rel t) : s = t := by
  have hd : A.V.dr s t = 0 := by unfold LV.dr; rw [he]; simp
  have hL : 0 < L := by
    rcases Nat.eq_zero_or_pos L with h0 | h0
    · have := hs.1; rw [h0] at this; simp at this
    · exact h0
  have hs1 : s / L < L := Nat.div_lt_of_lt_mul hs.1
  have ht1 : t / L < L := Nat.div_lt_of_lt_mul ht.1
  have hs2 := Nat.mod_lt s hL
  have ht2 := Nat.mod_lt t hL
  have fin : s / L = t / L → s % L = t % L → s = t := by
    intro h1 h2
    rw [← Nat.div_add_mod s L, ← Nat.div_add_mod t L, h1, h2]
  by_cases h3 : 3 ≤ L
  · obtain ⟨h1, h2⟩ := walk_mod vocc_lt (h.wrap.lift h3 s t hs ht hg)
    rw [hd] at h1 h2
    have z : ∀ a b : Nat, a < L → b < L → (L : Int) ∣ 0 - ((b : Int) - (a : Int)) → a = b := by
      intro a b ha hb hdiv
      have := Int.eq_zero_of_abs_lt_dvd hdiv (by rw [abs_lt]; omega)
      omega
    exact fin (z _ _ hs1 ht1 h1) (z _ _ hs2 ht2 h2)
  · have := (h.wrap.flat (by omega)).1 s t hs ht hg
    rw [hd] at this
    have e1 := congrArg Prod.fst this
    have e2 := congrArg Prod.snd this
    simp only [sidx, Idx.pr, Prod.fst_sub, Prod.snd_sub, Prod.fst_zero, Prod.snd_zero] at e1 e2
    exact fin (by omega) (by omega)

end SqPerc
