import Verif.Proof.Lift
/-
Invariants about wrapping.
-/
namespace SqPerc

variable {α : Type} {L k : Nat} {V V' : LV} {P P' : PV} {r : Int} {env : Env α}

/-- A displacement with a component of absolute value one. -/
def UnitStep (v : Int × Int) : Prop := v.1.natAbs = 1 ∨ v.2.natAbs = 1

theorem UnitStep.neg {v : Int × Int} (h : UnitStep v) : UnitStep (-v) := by
  unfold UnitStep at *
  rw [Prod.fst_neg, Prod.snd_neg, Int.natAbs_neg, Int.natAbs_neg]; exact h

/-- Every occupied site with an occupied neighbour has one whose relative index is a unit step away. -/
def UnitNb (L : Nat) (V : LV) : Prop :=
  ∀ s, VOcc L V s → (∃ d, VOcc L V (nbr L s d)) → ∃ d, VOcc L V (nbr L s d) ∧ UnitStep (V.dr s (nbr L s d))

theorem cdiff_unit (hL : 2 ≤ L) (hk : k < L * L) (d : Dir) : UnitStep (cdiff L k (nbr L k d)).pr := by
  by_cases h3 : 3 ≤ L
  · rw [cdiff_nbr h3 hk d]
    cases d <;> simp [UnitStep, Dir.vec]
  · have : L = 2 := by omega
    subst this
    have hk4 : k < 4 := hk
    rw [cdiff_small (by omega) hk (nbr_lt hk d)]
    have : k = 0 ∨ k = 1 ∨ k = 2 ∨ k = 3 := by omega
    unfold UnitStep
    rcases this with rfl | rfl | rfl | rfl <;> cases d <;> decide

theorem siteConn_isolated {occ : Nat → Prop} {s t : Nat} (h : SiteConn L occ s t) (hi : ∀ d, ¬ occ (nbr L s d)) : t = s := by
  induction h using Relation.ReflTransGen.head_induction_on with
  | refl => rfl
  | head h _ _ =>
    obtain ⟨_, h2, d, rfl⟩ := h
    exact absurd h2 (hi d)

/-- The anchor of an adjacent cluster that has an occupied site. -/
theorem PlaceEffect.anchor_occ (E : PlaceEffect L k r V V' P P') (C : Core L V P) (hk : k < L * L) (hu : V.sg k = -1) {d : Dir}
    (hn : VOcc L V (nbr L k d)) : ∃ d', VOcc L V (nbr L k d') ∧ V.sg (nbr L k d') = V.sg (nbr L k d) ∧
      V'.dr k (nbr L k d') = (cdiff L k (nbr L k d')).pr := by
  have hg : V.bg (bondAt L k d) = V.sg (nbr L k d) := by
    rw [← C.inc _ d.opp hn, bondAt_nbr_opp hk]
  obtain ⟨d', hd, han⟩ := E.anchor d
  have ho := C.nbr_occ hk hu hn (hd.trans hg)
  refine ⟨d', ho, ?_, ?_⟩
  · rw [← C.inc _ d'.opp ho, bondAt_nbr_opp hk, hd, hg]
  · have := congrArg Idx.pr (han ho.2)
    rw [Idx.pr_sub] at this
    exact this

theorem UnitNb.place (hL : 2 ≤ L) (E : PlaceEffect L k r V V' P P') (C : Core L V P) (hk : k < L * L) (hu : V.sg k = -1) (h : UnitNb L V) :
    UnitNb L V' := by
  have hmono : ∀ s, VOcc L V s → VOcc L V' s := fun s hs => (E.occ_iff C hk s).2 (Or.inl hs)
  have hko : VOcc L V' k := (E.occ_iff C hk k).2 (Or.inr rfl)
  intro s hs hex
  by_cases hsk : s = k
  · subst hsk
    obtain ⟨d, hd⟩ := hex
    have hd' : VOcc L V (nbr L s d) := ((E.occ_iff C hk _).1 hd).resolve_right (nbr_ne hL hk d)
    obtain ⟨d', h1, _, h3⟩ := E.anchor_occ C hk hu hd'
    exact ⟨d', hmono _ h1, by rw [h3]; exact cdiff_unit hL hk d'⟩
  · have hso : VOcc L V s := ((E.occ_iff C hk s).1 hs).resolve_right hsk
    by_cases hold : ∃ d, VOcc L V (nbr L s d)
    · obtain ⟨d, h1, h2⟩ := h s hso hold
      exact ⟨d, hmono _ h1, by rw [E.dr_eq hso h1 (C.sg_nbr hso h1).symm]; exact h2⟩
    · obtain ⟨d, hd⟩ := hex
      have hdk : nbr L s d = k := by
        rcases (E.occ_iff C hk _).1 hd with h' | h'
        · exact absurd ⟨d, h'⟩ hold
        · exact h'
      have hks : nbr L k d.opp = s := by rw [← hdk, nbr_opp hs.1]
      obtain ⟨d', h1, h2, h3⟩ := E.anchor_occ C hk hu (d := d.opp) (by rw [hks]; exact hso)
      rw [hks] at h2
      have hconn : SiteConn L (VOcc L V) s (nbr L k d') := by
        rw [siteConn_iff vocc_lt hso h1 .right .right, ← C.conn _ _ (bondAt_lt hso.1 _) (bondAt_lt h1.1 _), C.inc _ _ hso, C.inc _ _ h1, h2]
      have he := siteConn_isolated hconn (fun d hd => hold ⟨d, hd⟩)
      rw [he] at h3
      refine ⟨d, hd, ?_⟩
      rw [hdk, ← LV.dr_neg, h3, ← he]
      exact (cdiff_unit hL hk d').neg

/-- Invariant about wrapping for every history. -/
structure WInv (L : Nat) (A : Abs α) : Prop where
  lift : 3 ≤ L → Lift L A.V
  flat : L ≤ 2 → Flat L A.V ∧ A.aw = false
  unit : 2 ≤ L → UnitNb L A.V
  off : A.aw = false → A.wid = -1 ∧ A.pcb = none ∧ A.pcs = none ∧ A.pco = 0
  on : A.aw = true → ∃ s, VOcc L A.V s ∧ A.V.sg s = A.wid ∧ WrapsAt L (VOcc L A.V) s

theorem WInv.init (env : Env α) (L : Nat) (sel : Option Nat) : WInv L (Abs.init env L sel) := by
  have hn : ∀ s, ¬ VOcc L (Abs.init env L sel).V s := by
    rintro s ⟨_, h⟩
    exact absurd h (show ¬ (0 : Int) ≤ -1 by decide)
  refine ⟨fun _ s _ h => absurd h (hn s), fun _ => ⟨fun s _ h => absurd h (hn s), rfl⟩, fun _ s h => absurd h (hn s),
    fun _ => ⟨rfl, rfl, rfl, rfl⟩, fun h => by cases h⟩

/-- The wrapping cluster survives a placement. -/
theorem PlaceEffect.keeps_wid (E : PlaceEffect L k r V V' P P') {wid : Int} (hr : RootRule L V P k true wid r) {s : Nat} (hs : s < L * L)
    (hsk : s ≠ k) (h : V.sg s = wid) : V'.sg s = wid := by
  by_cases ha : Adj L V k (V.sg s)
  · rw [E.sgAdj s hs ha]; exact hr.1 rfl (h ▸ ha)
  · rw [E.sgFar s hs hsk ha, h]

theorem WInv.step {A A' : Abs α} (I : AInv L A) (h : WInv L A) (hs : AStep env L A A') : WInv L A' := by
  cases hs with
  | @place k r V' P' hk hu E hr =>
    refine ⟨fun hL => Lift.place hL E I.core hk hu (h.lift hL), fun hL => ⟨Flat.place hL E I.core hk hu (h.flat hL).1, (h.flat hL).2⟩,
      fun hL => UnitNb.place hL E I.core hk hu (h.unit hL), h.off, fun ha => ?_⟩
    have ha : A.aw = true := ha
    obtain ⟨s, h1, h2, h3⟩ := h.on ha
    have hsk : s ≠ k := by rintro rfl; have := h1.2; omega
    rw [ha] at hr
    exact ⟨s, (E.occ_iff I.core hk s).2 (Or.inl h1), E.keeps_wid hr h1.1 hsk h2,
      h3.mono fun t ht => (E.occ_iff I.core hk t).2 (Or.inl ht)⟩
  | @tick V1 h' =>
    have e := h'.vocc (L := L)
    have ed : V1.dr = A.V.dr := by
      funext s t; unfold LV.dr; rw [h'.2.1]
    refine ⟨fun hL => ?_, fun hL => ⟨?_, (h.flat hL).2⟩, fun hL => ?_, h.off, fun ha => ?_⟩
    · show Lift L V1
      unfold Lift; rw [e, ed, h'.1]; exact h.lift hL
    · show Flat L V1
      unfold Flat; rw [e, ed, h'.1]; exact (h.flat hL).1
    · show UnitNb L V1
      unfold UnitNb; rw [e, ed]; exact h.unit hL
    · show ∃ s, VOcc L V1 s ∧ V1.sg s = _ ∧ WrapsAt L (VOcc L V1) s
      rw [e, h'.1]; exact h.on ha
  | @detect k ha hsel h0 hH =>
    have hk := I.selLt k hsel
    have hL : 3 ≤ L := by
      by_contra hn
      exact (h.flat (by omega)).1.not_hit (by omega) ⟨hk, h0⟩ hH
    refine ⟨h.lift, fun hL' => absurd hL' (by omega), h.unit, fun h => (by cases h), fun _ => ?_⟩
    exact ⟨k, ⟨hk, h0⟩, rfl, (h.lift hL).wraps_of_hit ⟨hk, h0⟩ hH⟩
  | reselect _ _ => exact ⟨h.lift, h.flat, h.unit, h.off, h.on⟩

theorem AReach.wrap {A : Abs α} (h : AReach env L A) : WInv L A := by
  induction h with
  | init _ => exact WInv.init env L _
  | step h hs ih => exact ih.step h.inv hs

theorem AReach.three {A : Abs α} (h : AReach env L A) (ha : A.aw = true) : 3 ≤ L := by
  by_contra hn
  have := (h.wrap.flat (by omega)).2
  rw [ha] at this; cases this

theorem AReach.wid_gids {A : Abs α} (h : AReach env L A) (ha : A.aw = true) : A.wid ∈ gids L ∧ 0 < A.P.len A.wid := by
  obtain ⟨s, h1, h2, _⟩ := h.wrap.on ha
  have C := h.inv.core
  have hg : A.wid ∈ gids L := by
    rw [← h2]
    exact mem_gids.2 ((C.sgr s h1.1).resolve_left (by have := h1.2; omega))
  refine ⟨hg, ?_⟩
  have := C.len_pos h1.1 (g := A.wid) ⟨.right, by rw [C.inc s _ h1, h2]⟩
  exact this

/-- The wrapping cluster never shrinks and is never above the largest one. -/
theorem AStep.wid_mono {A A' : Abs α} (h : AStep env L A A') (ha : A.aw = true) :
    A'.aw = true ∧ A'.wid = A.wid ∧ A'.pco = A.pco ∧ A'.pcb = A.pcb ∧ A'.pcs = A.pcs ∧ A.P.len A.wid ≤ A'.P.len A.wid := by
  cases h with
  | @place k r V' P' hk hu E hr =>
    refine ⟨ha, rfl, rfl, rfl, rfl, ?_⟩
    show A.P.len A.wid ≤ P'.len A.wid
    by_cases hadj : Adj L A.V k A.wid
    · have := hr.1 ha hadj
      rw [← this]
      exact this ▸ E.len_le_root hadj
    · rw [E.len_kept hadj]
  | tick h => exact ⟨ha, rfl, rfl, rfl, rfl, le_rfl⟩
  | detect ha' _ _ _ => rw [ha] at ha'; cases ha'
  | reselect _ _ => exact ⟨ha, rfl, rfl, rfl, rfl, le_rfl⟩

theorem ASteps.wid_mono {A A' : Abs α} (h : ASteps env L A A') (ha : A.aw = true) :
    A'.aw = true ∧ A'.wid = A.wid ∧ A'.pco = A.pco ∧ A'.pcb = A.pcb ∧ A'.pcs = A.pcs ∧ A.P.len A.wid ≤ A'.P.len A.wid := by
  induction h with
  | refl => exact ⟨ha, rfl, rfl, rfl, rfl, le_rfl⟩
  | tail h1 h2 ih =>
    obtain ⟨i1, i2, i3, i4, i5, i6⟩ := ih
    obtain ⟨j1, j2, j3, j4, j5, j6⟩ := h2.wid_mono i1
    rw [i2] at j6
    exact ⟨j1, j2.trans i2, j3.trans i3, j4.trans i4, j5.trans i5, i6.trans j6⟩

/-- Sites of the wrapping cluster stay in it. -/
theorem AStep.wid_sites {A A' : Abs α} (h : AStep env L A A') (ha : A.aw = true) (h0 : 0 ≤ A.wid) {s : Nat} (hs : s < L * L)
    (hw : A.V.sg s = A.wid) : A'.V.sg s = A'.wid := by
  cases h with
  | @place k r V' P' hk hu E hr =>
    rw [ha] at hr
    exact E.keeps_wid hr hs (by rintro rfl; omega) hw
  | tick h => show _ = A.wid; rw [← hw]; exact congrFun h.1 s
  | detect ha' _ _ _ => rw [ha] at ha'; cases ha'
  | reselect _ _ => exact hw

theorem ASteps.wid_sites {A A' : Abs α} (h : ASteps env L A A') (ha : A.aw = true) (h0 : 0 ≤ A.wid) {s : Nat} (hs : s < L * L)
    (hw : A.V.sg s = A.wid) : A'.V.sg s = A'.wid := by
  induction h with
  | refl => exact hw
  | tail h1 h2 ih =>
    obtain ⟨i1, i2, _⟩ := ASteps.wid_mono h1 ha
    exact h2.wid_sites i1 (by omega) hs ih

end SqPerc
