import Verif.Spec.Symmetry
import Verif.Spec.Lines
import Verif.Proof.Conn
import Verif.Props.Entropy
/-
Lattice symmetries: components, walks and the quantities of `Spec/Sequence` are carried along.
-/
namespace SqPerc

variable {L : Nat}

/-! ### The symmetries -/

/-- The inverse symmetry. -/
def Symmetry.symm (σ : Symmetry L) : Symmetry L where
  site := σ.back
  back := σ.site
  dir := σ.dirBack
  dirBack := σ.dir
  site_lt := σ.back_lt
  back_lt := σ.site_lt
  back_site := σ.site_back
  site_back := σ.back_site
  dirBack_dir := σ.dir_dirBack
  dir_dirBack := σ.dirBack_dir
  dir_opp d := by rw [← σ.dirBack_dir (σ.dirBack d).opp, σ.dir_opp, σ.dir_dirBack]
  nbr_site s hs d := by
    have h := σ.nbr_site (σ.back s) (σ.back_lt s hs) (σ.dirBack d)
    rw [σ.site_back s hs, σ.dir_dirBack] at h
    rw [h, σ.back_site _ (nbr_lt (σ.back_lt s hs) _)]

/-- One symmetry after the other. -/
def Symmetry.comp (σ τ : Symmetry L) : Symmetry L where
  site s := τ.site (σ.site s)
  back s := σ.back (τ.back s)
  dir d := τ.dir (σ.dir d)
  dirBack d := σ.dirBack (τ.dirBack d)
  site_lt s hs := τ.site_lt _ (σ.site_lt s hs)
  back_lt s hs := σ.back_lt _ (τ.back_lt s hs)
  back_site s hs := by rw [τ.back_site _ (σ.site_lt s hs), σ.back_site s hs]
  site_back s hs := by rw [σ.site_back _ (τ.back_lt s hs), τ.site_back s hs]
  dirBack_dir d := by rw [τ.dirBack_dir, σ.dirBack_dir]
  dir_dirBack d := by rw [σ.dir_dirBack, τ.dir_dirBack]
  dir_opp d := by rw [σ.dir_opp, τ.dir_opp]
  nbr_site s hs d := by rw [τ.nbr_site _ (σ.site_lt s hs), σ.nbr_site s hs]

theorem shiftSite_rc {a b r c : Nat} (hc : c < L) : shiftSite L a b (r * L + c) = (r + a) % L * L + (c + b) % L := by
  unfold shiftSite; rw [mul_add_div_L hc, mul_add_mod_L hc]

theorem transposeSite_rc {r c : Nat} (hc : c < L) : transposeSite L (r * L + c) = c * L + r := by
  unfold transposeSite; rw [mul_add_div_L hc, mul_add_mod_L hc]

theorem flipSite_rc {r c : Nat} (hc : c < L) : flipSite L (r * L + c) = (L - 1 - r) * L + c := by
  unfold flipSite; rw [mul_add_div_L hc, mul_add_mod_L hc]

theorem shift_back {a r : Nat} (hr : r < L) : ((r + a) % L + (L - a % L)) % L = r := by
  have hL : 0 < L := by omega
  have ha : a % L < L := Nat.mod_lt _ hL
  rw [Nat.mod_add_mod, show r + a + (L - a % L) = r + (a - a % L) + L by have := Nat.mod_le a L; omega, Nat.add_mod_right,
    show a - a % L = L * (a / L) by have := Nat.div_add_mod a L; omega, Nat.add_mul_mod_self_left, Nat.mod_eq_of_lt hr]

theorem back_shift {a r : Nat} (hr : r < L) : ((r + (L - a % L)) % L + a) % L = r := by
  have hL : 0 < L := by omega
  have ha : a % L < L := Nat.mod_lt _ hL
  rw [Nat.mod_add_mod, show r + (L - a % L) + a = r + (a - a % L) + L by have := Nat.mod_le a L; omega, Nat.add_mod_right,
    show a - a % L = L * (a / L) by have := Nat.div_add_mod a L; omega, Nat.add_mul_mod_self_left, Nat.mod_eq_of_lt hr]

/-- Shift by `a` rows and `b` columns. -/
def Symmetry.shift (L a b : Nat) : Symmetry L where
  site := shiftSite L a b
  back := shiftSite L (L - a % L) (L - b % L)
  dir d := d
  dirBack d := d
  site_lt s hs := by
    obtain ⟨r, c, hr, hc, rfl⟩ := exists_rc hs
    rw [shiftSite_rc hc]; exact mul_add_lt (Nat.mod_lt _ (by omega)) (Nat.mod_lt _ (by omega))
  back_lt s hs := by
    obtain ⟨r, c, hr, hc, rfl⟩ := exists_rc hs
    rw [shiftSite_rc hc]; exact mul_add_lt (Nat.mod_lt _ (by omega)) (Nat.mod_lt _ (by omega))
  back_site s hs := by
    obtain ⟨r, c, hr, hc, rfl⟩ := exists_rc hs
    rw [shiftSite_rc hc, shiftSite_rc (Nat.mod_lt _ (by omega)), shift_back hr, shift_back hc]
  site_back s hs := by
    obtain ⟨r, c, hr, hc, rfl⟩ := exists_rc hs
    rw [shiftSite_rc hc, shiftSite_rc (Nat.mod_lt _ (by omega)), back_shift hr, back_shift hc]
  dirBack_dir _ := rfl
  dir_dirBack _ := rfl
  dir_opp _ := rfl
  nbr_site s hs d := by
    obtain ⟨r, c, hr, hc, rfl⟩ := exists_rc hs
    have hL : 0 < L := by omega
    rw [shiftSite_rc hc]
    cases d
    · rw [nbr_right_rc (Nat.mod_lt _ hL), nbr_right_rc hc, shiftSite_rc (Nat.mod_lt _ hL), Nat.mod_add_mod, Nat.mod_add_mod, Nat.add_right_comm]
    · rw [nbr_down_rc (Nat.mod_lt _ hL), nbr_down_rc hc, shiftSite_rc hc, Nat.mod_add_mod, Nat.mod_add_mod, Nat.add_right_comm]
    · rw [nbr_left_rc (Nat.mod_lt _ hL), nbr_left_rc hc, shiftSite_rc (Nat.mod_lt _ hL), Nat.mod_add_mod, Nat.mod_add_mod, Nat.add_right_comm]
    · rw [nbr_up_rc (Nat.mod_lt _ hL), nbr_up_rc hc, shiftSite_rc hc, Nat.mod_add_mod, Nat.mod_add_mod, Nat.add_right_comm]

/-- Directions under exchange of rows and columns. -/
def Dir.swap : Dir → Dir
  | .right => .down
  | .down => .right
  | .left => .up
  | .up => .left

/-- Exchange of rows and columns. -/
def Symmetry.transpose (L : Nat) : Symmetry L where
  site := transposeSite L
  back := transposeSite L
  dir := Dir.swap
  dirBack := Dir.swap
  site_lt s hs := by
    obtain ⟨r, c, hr, hc, rfl⟩ := exists_rc hs
    rw [transposeSite_rc hc]; exact mul_add_lt hc hr
  back_lt s hs := by
    obtain ⟨r, c, hr, hc, rfl⟩ := exists_rc hs
    rw [transposeSite_rc hc]; exact mul_add_lt hc hr
  back_site s hs := by
    obtain ⟨r, c, hr, hc, rfl⟩ := exists_rc hs
    rw [transposeSite_rc hc, transposeSite_rc hr]
  site_back s hs := by
    obtain ⟨r, c, hr, hc, rfl⟩ := exists_rc hs
    rw [transposeSite_rc hc, transposeSite_rc hr]
  dirBack_dir d := by cases d <;> rfl
  dir_dirBack d := by cases d <;> rfl
  dir_opp d := by cases d <;> rfl
  nbr_site s hs d := by
    obtain ⟨r, c, hr, hc, rfl⟩ := exists_rc hs
    have hL : 0 < L := by omega
    rw [transposeSite_rc hc]
    cases d
    · rw [show Dir.swap .right = .down from rfl, nbr_down_rc hr, nbr_right_rc hc, transposeSite_rc (Nat.mod_lt _ hL)]
    · rw [show Dir.swap .down = .right from rfl, nbr_right_rc hr, nbr_down_rc hc, transposeSite_rc hc]
    · rw [show Dir.swap .left = .up from rfl, nbr_up_rc hr, nbr_left_rc hc, transposeSite_rc (Nat.mod_lt _ hL)]
    · rw [show Dir.swap .up = .left from rfl, nbr_left_rc hr, nbr_up_rc hc, transposeSite_rc hc]

/-- Directions under reversal of the rows. -/
def Dir.flip : Dir → Dir
  | .right => .right
  | .down => .up
  | .left => .left
  | .up => .down

/-- Reversal of the order of the rows. -/
def Symmetry.flip (L : Nat) : Symmetry L where
  site := flipSite L
  back := flipSite L
  dir := Dir.flip
  dirBack := Dir.flip
  site_lt s hs := by
    obtain ⟨r, c, hr, hc, rfl⟩ := exists_rc hs
    rw [flipSite_rc hc]; exact mul_add_lt (by omega) hc
  back_lt s hs := by
    obtain ⟨r, c, hr, hc, rfl⟩ := exists_rc hs
    rw [flipSite_rc hc]; exact mul_add_lt (by omega) hc
  back_site s hs := by
    obtain ⟨r, c, hr, hc, rfl⟩ := exists_rc hs
    rw [flipSite_rc hc, flipSite_rc hc, show L - 1 - (L - 1 - r) = r by omega]
  site_back s hs := by
    obtain ⟨r, c, hr, hc, rfl⟩ := exists_rc hs
    rw [flipSite_rc hc, flipSite_rc hc, show L - 1 - (L - 1 - r) = r by omega]
  dirBack_dir d := by cases d <;> rfl
  dir_dirBack d := by cases d <;> rfl
  dir_opp d := by cases d <;> rfl
  nbr_site s hs d := by
    obtain ⟨r, c, hr, hc, rfl⟩ := exists_rc hs
    have hL : 0 < L := by omega
    have hr' : L - 1 - r < L := by omega
    rw [flipSite_rc hc]
    cases d
    · rw [show Dir.flip .right = .right from rfl, nbr_right_rc hc, nbr_right_rc hc, flipSite_rc (Nat.mod_lt _ hL)]
    · rw [show Dir.flip .down = .up from rfl, nbr_up_rc hc, nbr_down_rc hc, flipSite_rc hc, pred_mod_cases hr', succ_mod_cases hr]
      congr 2; split <;> split <;> omega
    · rw [show Dir.flip .left = .left from rfl, nbr_left_rc hc, nbr_left_rc hc, flipSite_rc (Nat.mod_lt _ hL)]
    · rw [show Dir.flip .up = .down from rfl, nbr_down_rc hc, nbr_up_rc hc, flipSite_rc hc, succ_mod_cases hr', pred_mod_cases hr]
      congr 2; split <;> split <;> omega

/-! ### Bonds -/

/-- The image of a bond. -/
def Symmetry.bond (σ : Symmetry L) (b : Nat) : Nat :=
  if b < L * L then bondAt L (σ.site b) (σ.dir .right) else bondAt L (σ.site (b - L * L)) (σ.dir .down)

theorem exists_bondAt {b : Nat} (hb : b < 2 * (L * L)) : ∃ s d, s < L * L ∧ b = bondAt L s d := by
  by_cases h : b < L * L
  · exact ⟨b, .right, h, rfl⟩
  · exact ⟨b - L * L, .down, by omega, by simp only [bondAt]; omega⟩

variable (σ : Symmetry L)

theorem Symmetry.bond_bondAt {s : Nat} (hs : s < L * L) (d : Dir) : σ.bond (bondAt L s d) = bondAt L (σ.site s) (σ.dir d) := by
  have key : ∀ e, bondAt L (σ.site (nbr L s e)) (σ.dir e.opp) = bondAt L (σ.site s) (σ.dir e) := by
    intro e
    rw [← σ.nbr_site s hs e, σ.dir_opp]
    exact bondAt_nbr_opp (σ.site_lt s hs) _
  unfold Symmetry.bond
  cases d
  · rw [if_pos (by simpa [bondAt] using hs)]; rfl
  · rw [if_neg (by simp [bondAt])]
    simp only [bondAt, Nat.add_sub_cancel_left]
  · rw [if_pos (by simpa [bondAt] using nbr_lt hs .left)]
    exact key .left
  · rw [if_neg (by simp [bondAt]), ← key .up]
    simp only [bondAt, Nat.add_sub_cancel_left]; rfl

theorem Symmetry.bond_lt {b : Nat} (hb : b < 2 * (L * L)) : σ.bond b < 2 * (L * L) := by
  obtain ⟨s, d, hs, rfl⟩ := exists_bondAt hb
  rw [σ.bond_bondAt hs]; exact bondAt_lt (σ.site_lt s hs) _

theorem Symmetry.symm_bond {b : Nat} (hb : b < 2 * (L * L)) : σ.symm.bond (σ.bond b) = b := by
  obtain ⟨s, d, hs, rfl⟩ := exists_bondAt hb
  rw [σ.bond_bondAt hs, σ.symm.bond_bondAt (σ.site_lt s hs)]
  show bondAt L (σ.back (σ.site s)) (σ.dirBack (σ.dir d)) = _
  rw [σ.back_site s hs, σ.dirBack_dir]

theorem Symmetry.bond_symm {b : Nat} (hb : b < 2 * (L * L)) : σ.bond (σ.symm.bond b) = b := σ.symm.symm_bond hb

theorem Symmetry.incident {s b : Nat} (hb : b < 2 * (L * L)) (h : Incident L s b) : Incident L (σ.site s) (σ.bond b) := by
  obtain ⟨hs, d, rfl⟩ := (incident_iff hb).1 h
  rw [σ.bond_bondAt hs]; exact incident_bondAt (σ.site_lt s hs) _

/-! ### Connection -/

/-- Two configurations that correspond under a symmetry. -/
structure Symmetry.Corr (occ occ' : Nat → Prop) : Prop where
  lt : ∀ s, occ s → s < L * L
  lt' : ∀ s, occ' s → s < L * L
  iff : ∀ s < L * L, occ s ↔ occ' (σ.site s)

variable {σ} {occ occ' : Nat → Prop}

theorem Symmetry.Corr.symm (h : σ.Corr occ occ') : σ.symm.Corr occ' occ :=
  ⟨h.lt', h.lt, fun s hs => by
    show occ' s ↔ occ (σ.back s)
    rw [h.iff _ (σ.back_lt s hs), σ.site_back s hs]⟩

theorem Symmetry.Corr.map {l : List Nat} (h : ∀ s ∈ l, s < L * L) : σ.Corr (· ∈ l) (· ∈ l.map σ.site) where
  lt := h
  lt' s hs := by
    obtain ⟨t, ht, rfl⟩ := List.mem_map.1 hs
    exact σ.site_lt t (h t ht)
  iff s hs := by
    constructor
    · exact fun hm => List.mem_map_of_mem hm
    · intro hm
      obtain ⟨t, ht, e⟩ := List.mem_map.1 hm
      have : t = s := by rw [← σ.back_site t (h t ht), e, σ.back_site s hs]
      exact this ▸ ht

theorem Symmetry.Corr.bondConn (h : σ.Corr occ occ') {a b : Nat} (hab : BondConn L occ a b) : BondConn L occ' (σ.bond a) (σ.bond b) := by
  induction hab with
  | refl => exact .refl _
  | tail _ hs ih =>
    obtain ⟨h1, h2, s, ho, i1, i2⟩ := hs
    exact ih.tail ⟨σ.bond_lt h1, σ.bond_lt h2, σ.site s, (h.iff s (h.lt s ho)).1 ho, σ.incident h1 i1, σ.incident h2 i2⟩

theorem Symmetry.Corr.bondConn_iff (h : σ.Corr occ occ') {a b : Nat} (ha : a < 2 * (L * L)) (hb : b < 2 * (L * L)) :
    BondConn L occ' (σ.bond a) (σ.bond b) ↔ BondConn L occ a b := by
  refine ⟨fun hc => ?_, h.bondConn⟩
  have := h.symm.bondConn hc
  rwa [σ.symm_bond ha, σ.symm_bond hb] at this

theorem Symmetry.Corr.siteConn (h : σ.Corr occ occ') {s t : Nat} (hst : SiteConn L occ s t) : SiteConn L occ' (σ.site s) (σ.site t) := by
  induction hst with
  | refl => exact .refl _
  | tail _ hs ih =>
    obtain ⟨h1, h2, d, rfl⟩ := hs
    have hl := h.lt _ h1
    exact ih.tail ⟨(h.iff _ hl).1 h1, (h.iff _ (nbr_lt hl d)).1 h2, σ.dir d, (σ.nbr_site _ hl d).symm⟩

theorem Symmetry.Corr.siteConn_iff (h : σ.Corr occ occ') {s t : Nat} (hs : s < L * L) (ht : t < L * L) :
    SiteConn L occ' (σ.site s) (σ.site t) ↔ SiteConn L occ s t := by
  refine ⟨fun hc => ?_, h.siteConn⟩
  have := h.symm.siteConn hc
  rwa [show σ.symm.site (σ.site s) = s from σ.back_site s hs, show σ.symm.site (σ.site t) = t from σ.back_site t ht] at this

open Classical in
theorem Symmetry.Corr.bondComp (h : σ.Corr occ occ') {b : Nat} (hb : b < 2 * (L * L)) :
    bondComp L occ' (σ.bond b) = (bondComp L occ b).image σ.bond := by
  ext x
  simp only [SqPerc.bondComp, Finset.mem_filter, Finset.mem_range, Finset.mem_image]
  constructor
  · rintro ⟨hx, hc⟩
    refine ⟨σ.symm.bond x, ⟨σ.symm.bond_lt hx, ?_⟩, σ.bond_symm hx⟩
    rw [← h.bondConn_iff hb (σ.symm.bond_lt hx), σ.bond_symm hx]; exact hc
  · rintro ⟨y, ⟨hy, hc⟩, rfl⟩
    exact ⟨σ.bond_lt hy, h.bondConn hc⟩

theorem bondComp_sub {b x : Nat} (h : x ∈ bondComp L occ b) : x < 2 * (L * L) := by
  classical
  exact Finset.mem_range.1 (Finset.mem_filter.1 h).1

open Classical in
theorem Symmetry.image_card (σ : Symmetry L) {X : Finset Nat} (hX : ∀ x ∈ X, x < 2 * (L * L)) : (X.image σ.bond).card = X.card := by
  refine Finset.card_image_of_injOn fun a ha b hb e => ?_
  rw [← σ.symm_bond (hX a ha), ← σ.symm_bond (hX b hb)]
  exact congrArg _ e

theorem Symmetry.Corr.bondComp_card (h : σ.Corr occ occ') {b : Nat} (hb : b < 2 * (L * L)) :
    (SqPerc.bondComp L occ' (σ.bond b)).card = (SqPerc.bondComp L occ b).card := by
  classical
  rw [h.bondComp hb, σ.image_card fun x hx => bondComp_sub hx]

open Classical in
theorem Symmetry.Corr.siteComp_card (h : σ.Corr occ occ') {s : Nat} (hs : s < L * L) :
    (siteComp L occ' (σ.site s)).card = (siteComp L occ s).card := by
  have e : siteComp L occ' (σ.site s) = (siteComp L occ s).image σ.site := by
    ext x
    simp only [siteComp, Finset.mem_filter, Finset.mem_range, Finset.mem_image]
    constructor
    · rintro ⟨hx, ho, hc⟩
      have hx' := σ.back_lt x hx
      refine ⟨σ.back x, ⟨hx', ?_, ?_⟩, σ.site_back x hx⟩
      · rw [h.iff _ hx', σ.site_back x hx]; exact ho
      · rw [← h.siteConn_iff hs hx', σ.site_back x hx]; exact hc
    · rintro ⟨y, ⟨hy, ho, hc⟩, rfl⟩
      exact ⟨σ.site_lt y hy, (h.iff y hy).1 ho, h.siteConn hc⟩
  rw [e]
  refine Finset.card_image_of_injOn fun a ha b hb e => ?_
  have ha' := Finset.mem_range.1 (Finset.mem_filter.1 ha).1
  have hb' := Finset.mem_range.1 (Finset.mem_filter.1 hb).1
  rw [← σ.back_site a ha', ← σ.back_site b hb']
  exact congrArg _ e

open Classical in
theorem Symmetry.Corr.bondComps (h : σ.Corr occ occ') : bondComps L occ' = (bondComps L occ).image (fun X => X.image σ.bond) := by
  ext X
  simp only [SqPerc.bondComps, Finset.mem_image, Finset.mem_range]
  constructor
  · rintro ⟨b, hb, rfl⟩
    refine ⟨_, ⟨σ.symm.bond b, σ.symm.bond_lt hb, rfl⟩, ?_⟩
    rw [← h.bondComp (σ.symm.bond_lt hb), σ.bond_symm hb]
  · rintro ⟨_, ⟨b, hb, rfl⟩, rfl⟩
    exact ⟨σ.bond b, σ.bond_lt hb, h.bondComp hb⟩

open Classical in
theorem bondComps_sub {X : Finset Nat} (h : X ∈ bondComps L occ) : ∀ x ∈ X, x < 2 * (L * L) := by
  obtain ⟨b, _, rfl⟩ := Finset.mem_image.1 h
  exact fun x hx => bondComp_sub hx

open Classical in
theorem Symmetry.image_injOn (σ : Symmetry L) : Set.InjOn (fun X : Finset Nat => X.image σ.bond) (bondComps L occ : Set (Finset Nat)) := by
  intro X hX Y hY e
  have key : ∀ Z : Finset Nat, (∀ z ∈ Z, z < 2 * (L * L)) → (Z.image σ.bond).image σ.symm.bond = Z := by
    intro Z hZ
    rw [Finset.image_image]
    conv_rhs => rw [← Finset.image_id (s := Z)]
    exact Finset.image_congr fun z hz => σ.symm_bond (hZ z hz)
  rw [← key X (bondComps_sub hX), ← key Y (bondComps_sub hY)]
  exact congrArg (Finset.image σ.symm.bond) e

theorem Symmetry.Corr.sup_card (h : σ.Corr occ occ') :
    (SqPerc.bondComps L occ').sup Finset.card = (SqPerc.bondComps L occ).sup Finset.card := by
  classical
  rw [h.bondComps, Finset.sup_image]
  exact Finset.sup_congr rfl fun X hX => σ.image_card (bondComps_sub hX)

/-- A symmetry leaves the entropy unchanged. -/
theorem Symmetry.Corr.shannon (h : σ.Corr occ occ') : shannon L occ' = shannon L occ := by
  classical
  unfold SqPerc.shannon
  rw [h.bondComps, Finset.sum_image σ.image_injOn]
  congr 1
  refine Finset.sum_congr rfl fun X hX => ?_
  rw [σ.image_card (bondComps_sub hX)]

/-! ### Wrapping -/

/-- The image of a displacement. -/
def Symmetry.vec (σ : Symmetry L) (v : Int × Int) : Int × Int :=
  (v.1 * (σ.dir .down).vec.1 + v.2 * (σ.dir .right).vec.1, v.1 * (σ.dir .down).vec.2 + v.2 * (σ.dir .right).vec.2)

theorem Symmetry.vec_add (v w : Int × Int) : σ.vec (v + w) = σ.vec v + σ.vec w := by
  simp only [Symmetry.vec, Prod.fst_add, Prod.snd_add, Prod.mk_add_mk, Prod.mk.injEq]
  constructor <;> ring

theorem Symmetry.vec_dir (d : Dir) : σ.vec d.vec = (σ.dir d).vec := by
  have h1 := σ.dir_opp .right
  have h2 := σ.dir_opp .down
  have e1 := Dir.vec_opp (σ.dir .right)
  have e2 := Dir.vec_opp (σ.dir .down)
  rw [← h1] at e1
  rw [← h2] at e2
  cases d
  · simp [Symmetry.vec, Dir.vec]
  · simp [Symmetry.vec, Dir.vec]
  · simp only [Dir.opp] at e1
    rw [e1]; ext <;> simp [Symmetry.vec, Dir.vec]
  · simp only [Dir.opp] at e2
    rw [e2]; ext <;> simp [Symmetry.vec, Dir.vec]

theorem Symmetry.dir_inj {d e : Dir} (h : σ.dir d = σ.dir e) : d = e := by
  rw [← σ.dirBack_dir d, ← σ.dirBack_dir e, h]

theorem Symmetry.vec_ne {v : Int × Int} (hv : v ≠ 0) : σ.vec v ≠ 0 := by
  intro h
  apply hv
  have n1 : σ.dir .down ≠ σ.dir .right := fun e => by cases σ.dir_inj e
  have n2 : σ.dir .down ≠ (σ.dir .right).opp := fun e => by rw [← σ.dir_opp] at e; cases σ.dir_inj e
  obtain ⟨x, y⟩ := v
  simp only [Symmetry.vec] at h
  cases h1 : σ.dir .down <;> cases h2 : σ.dir .right <;> rw [h1, h2] at h <;>
    first
    | exact absurd (h1.trans h2.symm) n1
    | (rw [h1, h2] at n2; exact absurd rfl n2)
    | (simp only [Dir.vec, Prod.mk_eq_zero] at h ⊢; omega)

theorem Symmetry.Corr.walk (h : σ.Corr occ occ') {s t : Nat} {v : Int × Int} (w : Walk L occ s t v) :
    Walk L occ' (σ.site s) (σ.site t) (σ.vec v) := by
  induction w with
  | nil ho =>
    have : σ.vec 0 = 0 := by simp [Symmetry.vec]
    rw [this]
    exact .nil ((h.iff _ (h.lt _ ho)).1 ho)
  | @snoc t v d w ho ih =>
    have ht := h.lt _ w.occ_right
    have := (h.iff _ (nbr_lt ht d)).1 ho
    rw [Symmetry.vec_add, Symmetry.vec_dir, ← σ.nbr_site t ht d]
    rw [← σ.nbr_site t ht d] at this
    exact .snoc _ ih this

theorem Symmetry.Corr.wraps (h : σ.Corr occ occ') : Wraps L occ' ↔ Wraps L occ := by
  constructor
  · rintro ⟨s, v, hv, w⟩
    exact ⟨_, _, σ.symm.vec_ne hv, h.symm.walk w⟩
  · rintro ⟨s, v, hv, w⟩
    exact ⟨_, _, σ.vec_ne hv, h.walk w⟩

/-! ### Sequences -/

variable {pre seq : List Nat}

theorem Symmetry.firstWrap (hs : ∀ s ∈ seq, s < L * L) : ∀ {pre : List Nat}, (∀ s ∈ pre, s < L * L) →
    firstWrap L (pre.map σ.site) (seq.map σ.site) = (firstWrap L pre seq).map fun p => (p.1.map σ.site, σ.site p.2) := by
  classical
  induction seq with
  | nil => intro pre _; rfl
  | cons k rest ih =>
    intro pre hp
    have hk := hs k (by simp)
    have hpk : ∀ s ∈ pre ++ [k], s < L * L := by
      intro s h
      rcases List.mem_append.1 h with h | h
      · exact hp s h
      · rw [List.mem_singleton.1 h]; exact hk
    have e : pre.map σ.site ++ [σ.site k] = (pre ++ [k]).map σ.site := by simp
    have hw := (Symmetry.Corr.map (σ := σ) hpk).wraps
    simp only [List.map_cons, SqPerc.firstWrap]
    rw [e]
    by_cases h : Wraps L (· ∈ pre ++ [k])
    · rw [if_pos h, if_pos (hw.2 h)]; rfl
    · rw [if_neg h, if_neg (fun h' => h (hw.1 h'))]
      exact ih (fun s h => hs s (by simp [h])) hpk

theorem Symmetry.seqLargest (hs : ∀ s ∈ seq, s < L * L) : seqLargest L (seq.map σ.site) = seqLargest L seq := by
  unfold SqPerc.seqLargest
  by_cases h : seq = []
  · rw [if_pos h, if_pos (by rw [h]; rfl)]
  · rw [if_neg h, if_neg (by simpa using h), (Symmetry.Corr.map (σ := σ) hs).sup_card]

theorem bondComp_dir {k : Nat} (hk : k < L * L) (ho : occ k) (d d' : Dir) : bondComp L occ (bondAt L k d) = bondComp L occ (bondAt L k d') := by
  classical
  unfold bondComp
  refine Finset.filter_congr fun b _ => ?_
  exact ⟨fun h => (BondConn.site hk ho d' d).trans h, fun h => (BondConn.site hk ho d d').trans h⟩

theorem Symmetry.Corr.bondComp_site (h : σ.Corr occ occ') {k : Nat} (ho : occ k) (d d' : Dir) :
    (SqPerc.bondComp L occ' (bondAt L (σ.site k) d)).card = (SqPerc.bondComp L occ (bondAt L k d')).card := by
  have hk := h.lt k ho
  rw [bondComp_dir (σ.site_lt k hk) ((h.iff k hk).1 ho) d (σ.dir d'), ← σ.bond_bondAt hk, h.bondComp_card (bondAt_lt hk d')]

theorem firstWrap_mem {p : List Nat × Nat} : ∀ {seq pre : List Nat}, firstWrap L pre seq = some p → (∀ s ∈ p.1, s ∈ pre ++ seq) ∧ p.2 ∈ seq := by
  classical
  intro seq
  induction seq with
  | nil => intro pre h; cases h
  | cons k rest ih =>
    intro pre h
    simp only [SqPerc.firstWrap] at h
    split at h
    · rw [← Option.some.inj h]
      exact ⟨fun s hs => List.mem_append_left _ hs, by simp⟩
    · obtain ⟨h1, h2⟩ := ih h
      refine ⟨fun s hs => ?_, by simp [h2]⟩
      have := h1 s hs
      simpa using this

theorem Symmetry.seqWrapping (hs : ∀ s ∈ seq, s < L * L) : seqWrapping L (seq.map σ.site) = seqWrapping L seq := by
  unfold SqPerc.seqWrapping
  by_cases hL : L < 3
  · rw [if_pos hL, if_pos hL]
  · rw [if_neg hL, if_neg hL]
    have hf := Symmetry.firstWrap (σ := σ) hs (pre := []) (by simp)
    rw [List.map_nil] at hf
    rw [hf]
    cases h : SqPerc.firstWrap L [] seq with
    | none => rfl
    | some p =>
      have hk : p.2 ∈ seq := (firstWrap_mem h).2
      exact (Symmetry.Corr.map (σ := σ) hs).bondComp_site hk _ _

theorem Symmetry.hasWrapped (hs : ∀ s ∈ seq, s < L * L) : HasWrapped L (seq.map σ.site) ↔ HasWrapped L seq :=
  and_congr_right fun _ => (Symmetry.Corr.map (σ := σ) hs).wraps

theorem stages_map (f : Nat → Nat) : ∀ pre seq : List Nat, stages (pre.map f) (seq.map f) = (stages pre seq).map (List.map f) := by
  intro pre seq
  induction seq generalizing pre with
  | nil => rfl
  | cons k rest ih =>
    have := ih (pre ++ [k])
    simp only [List.map_append, List.map_cons, List.map_nil] at this
    simp only [stages, List.map_cons, this, List.map_append, List.map_nil]

theorem stages_mem {q : List Nat} : ∀ {pre seq : List Nat}, q ∈ stages pre seq → ∀ s ∈ q, s ∈ pre ++ seq := by
  intro pre seq
  induction seq generalizing pre with
  | nil => intro h; cases h
  | cons k rest ih =>
    intro h s hs
    simp only [stages, List.mem_cons] at h
    rcases h with rfl | h
    · rcases List.mem_append.1 hs with h | h
      · exact List.mem_append_left _ h
      · rw [List.mem_singleton.1 h]; simp
    · simpa using ih h s hs

end SqPerc
