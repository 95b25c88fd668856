import Verif.Proof.Merge
import Verif.Proof.Conn
/-
The effect of placing a selected site on the views.
-/
namespace SqPerc

set_option linter.unusedTactic false

variable {α : Type} {L : Nat}

/-- Occupation according to a view. -/
def VOcc (L : Nat) (V : LV) (s : Nat) : Prop := s < L * L ∧ 0 ≤ V.sg s

/-- The core invariant: clusters partition bonds and occupied sites, and gids describe connectivity. -/
structure Core (L : Nat) (V : LV) (P : PV) : Prop where
  bgr : ∀ b < 2 * (L * L), 0 ≤ V.bg b ∧ V.bg b < (2 * (L * L) : Nat)
  sgr : ∀ s < L * L, V.sg s = -1 ∨ (0 ≤ V.sg s ∧ V.sg s < (2 * (L * L) : Nat))
  memb : ∀ g : Int, 0 ≤ g → g < (2 * (L * L) : Nat) → ∀ b, b ∈ P.cb g ↔ b < 2 * (L * L) ∧ V.bg b = g
  mems : ∀ g : Int, 0 ≤ g → g < (2 * (L * L) : Nat) → ∀ s, s ∈ P.cs g ↔ s < L * L ∧ V.sg s = g
  ndb : ∀ g : Int, 0 ≤ g → g < (2 * (L * L) : Nat) → (P.cb g).Nodup
  nds : ∀ g : Int, 0 ≤ g → g < (2 * (L * L) : Nat) → (P.cs g).Nodup
  cgok : ∀ g : Int, 0 ≤ g → g < (2 * (L * L) : Nat) → P.cb g ≠ [] → P.cg g = g
  ciok : ∀ g : Int, 0 ≤ g → g < (2 * (L * L) : Nat) → P.cb g ≠ [] → P.ci g = g
  inc : ∀ s d, VOcc L V s → V.bg (bondAt L s d) = V.sg s
  conn : ∀ b b', b < 2 * (L * L) → b' < 2 * (L * L) → (V.bg b = V.bg b' ↔ BondConn L (VOcc L V) b b')

/-- Gid `g` is the gid of one of the four bonds of `k`. -/
def Adj (L : Nat) (V : LV) (k : Nat) (g : Int) : Prop := ∃ d, V.bg (bondAt L k d) = g

/-- What placing site `k` does to the views; `r` is the surviving cluster. -/
structure PlaceEffect (L k : Nat) (r : Int) (V V' : LV) (P P' : PV) : Prop where
  adj : Adj L V k r
  bgAdj : ∀ b < 2 * (L * L), Adj L V k (V.bg b) → V'.bg b = r
  bgFar : ∀ b < 2 * (L * L), ¬ Adj L V k (V.bg b) → V'.bg b = V.bg b
  sgSelf : V'.sg k = r
  sgAdj : ∀ s < L * L, Adj L V k (V.sg s) → V'.sg s = r
  sgFar : ∀ s < L * L, s ≠ k → ¬ Adj L V k (V.sg s) → V'.sg s = V.sg s
  n1 : V'.n1 = V.n1
  n2 : V'.n2 = V.n2
  relFar : ∀ s < L * L, s ≠ k → ¬ Adj L V k (V.sg s) → V'.rel s = V.rel s
  relRoot : ∀ s < L * L, V.sg s = r → V'.rel s = V.rel s
  relTrans : ∀ s < L * L, ∀ t < L * L, 0 ≤ V.sg s → V.sg t = V.sg s → (V'.rel t).sub (V'.rel s) = (V.rel t).sub (V.rel s)
  anchor : ∀ d, ∃ d', V.bg (bondAt L k d') = V.bg (bondAt L k d) ∧
    (0 ≤ V.sg (nbr L k d') → (V'.rel (nbr L k d')).sub (V'.rel k) = cdiff L k (nbr L k d'))
  relNew : (∀ d, V.sg (nbr L k d) < 0) → V'.rel k = ⟨0, 0⟩
  cbCleared : ∀ g, Adj L V k g → g ≠ r → P'.cb g = []
  csCleared : ∀ g, Adj L V k g → g ≠ r → P'.cs g = []
  idCleared : ∀ g, Adj L V k g → g ≠ r → P'.cg g = -1 ∧ P'.ci g = -1
  cbKept : ∀ g, ¬ Adj L V k g → P'.cb g = P.cb g
  csKept : ∀ g, ¬ Adj L V k g → P'.cs g = P.cs g
  cgKept : ∀ g, ¬ Adj L V k g ∨ g = r → P'.cg g = P.cg g
  ciKept : ∀ g, ¬ Adj L V k g ∨ g = r → P'.ci g = P.ci g
  cbRoot : ∃ l : List Int, l.Nodup ∧ (∀ g, g ∈ l ↔ Adj L V k g ∧ g ≠ r) ∧ P'.cb r = P.cb r ++ l.flatMap P.cb
  csRoot : ∃ l : List Int, l.Nodup ∧ (∀ g, g ∈ l ↔ Adj L V k g ∧ g ≠ r) ∧ P'.cs r = (P.cs r ++ [k]) ++ l.flatMap P.cs

theorem clearLoop_mk {N : Nat} (r : Int) (gs : List Int) : ∀ {P : PV}, (∀ g ∈ gs, 0 ≤ g ∧ g < N) →
    Perc.clearLoop r gs (mkPool N P) = .ok (mkPool N { P with
      cs := fun g => if g ∈ gs ∧ g ≠ r then [] else P.cs g
      cb := fun g => if g ∈ gs ∧ g ≠ r then [] else P.cb g
      cg := fun g => if g ∈ gs ∧ g ≠ r then -1 else P.cg g
      ci := fun g => if g ∈ gs ∧ g ≠ r then -1 else P.ci g }) := by
  induction gs with
  | nil => intro P _; simp [Perc.clearLoop]
  | cons g gs ih =>
    intro P h
    obtain ⟨g0, g1⟩ := h g (by simp)
    have h' : ∀ x ∈ gs, 0 ≤ x ∧ x < (N : Int) := fun x hx => h x (by simp [hx])
    simp only [Perc.clearLoop]
    by_cases hr : g = r
    · rw [if_pos hr, ih h']
      congr 2
      have : ∀ x : Int, (x ∈ g :: gs ∧ x ≠ r) ↔ (x ∈ gs ∧ x ≠ r) := by
        intro x; rw [List.mem_cons, hr]
        constructor
        · rintro ⟨h1 | h1, h2⟩
          · exact absurd h1 h2
          · exact ⟨h1, h2⟩
        · rintro ⟨h1, h2⟩; exact ⟨Or.inr h1, h2⟩
      simp only [this]
    · rw [if_neg hr, clearCluster_mk g0 g1]
      show Perc.clearLoop r gs (mkPool N _) = _
      rw [ih h']
      congr 2
      have key : ∀ {β : Type} (f : Int → β) (e : β), (fun x => if x ∈ gs ∧ x ≠ r then e else updI f g e x) =
          fun x => if x ∈ g :: gs ∧ x ≠ r then e else f x := by
        intro β f e
        funext x
        by_cases hx : x = g
        · subst hx; simp [updI, hr]
        · simp [updI, hx]
      simp only [key]

theorem entropyGids_mk {S : Perc α} {V : LV} (hS : S.lat = mkLat L V) (bs : List Nat)
    (h : ∀ b ∈ bs, b < 2 * (L * L) ∧ 0 ≤ V.bg b) : Perc.entropyGids S bs = .ok (bs.map V.bg) := by
  induction bs with
  | nil => rfl
  | cons b bs ih =>
    obtain ⟨h1, h2⟩ := h b (by simp)
    simp only [Perc.entropyGids, hS, getBondGid_mk h1]
    show (Perc.entropyGids S bs >>= _) = _
    rw [ih (fun x hx => h x (by simp [hx]))]
    show Except.ok (if V.bg b = -1 then _ else _) = _
    rw [if_neg (by omega)]
    rfl

/-- The summand `mu * log(mu)` for a cluster of `n` bonds. -/
def muLog (env : Env α) (L n : Nat) : α :=
  env.ar.mul (env.ar.div (env.ar.ofNat n) (env.ar.ofNat (2 * (L * L))))
    (env.ar.log (env.ar.div (env.ar.ofNat n) (env.ar.ofNat (2 * (L * L)))))

theorem entropyLoop_mk (env : Env α) {S : Perc α} {V : LV} {N : Nat} {P : PV} (hS : S.lat = mkLat L V)
    (hP : S.pool = mkPool N P) (gs : List Int)
    (h : ∀ g ∈ gs, 0 ≤ g ∧ g < N ∧ P.cb g ≠ []) (x : α) :
    Perc.entropyLoop env S gs x = .ok (gs.foldl (fun h g => env.ar.add h (muLog env L (P.cb g).length)) x) := by
  induction gs generalizing x with
  | nil => rfl
  | cons g gs ih =>
    obtain ⟨h0, h1, h2⟩ := h g (by simp)
    simp only [Perc.entropyLoop, hP, bondCount_mk h0 h1]
    show (if (P.cb g).length = 0 then _ else _) = _
    rw [if_neg (by simpa using h2), ih (fun y hy => h y (by simp [hy])), hS, mkLat_bondCount]
    rfl

/-! ### Index arithmetic -/

theorem Idx.ext' {a b : Idx} (h1 : a.c1 = b.c1) (h2 : a.c2 = b.c2) : a = b := by
  cases a; cases b; simp_all

theorem fdiv_neg_natAbs (x : Int) (h : 1 < x.natAbs) : Int.fdiv (-x) x.natAbs = if 0 < x then -1 else 1 := by
  have hx : (x.natAbs : Int) ≠ 0 := by omega
  split
  · have : (-x) = (x.natAbs : Int) * (-1) := by omega
    rw [this, Int.mul_fdiv_cancel_left _ hx]
  · have : (-x) = (x.natAbs : Int) * 1 := by omega
    rw [this, Int.mul_fdiv_cancel_left _ hx]

/-- One component of the wrapping correction. -/
def corr (x : Int) : Int := if 1 < x.natAbs then (if 0 < x then -1 else 1) else x

theorem wrappingCorrection_eq (d : Idx) : wrappingCorrection d = ⟨corr d.c1, corr d.c2⟩ := by
  unfold wrappingCorrection corr
  apply Idx.ext'
  · show (if d.c1.natAbs > 1 then _ else _) = _
    by_cases h : 1 < d.c1.natAbs
    · rw [if_pos h, if_pos h, fdiv_neg_natAbs _ h]
    · rw [if_neg h, if_neg h]
  · show (if d.c2.natAbs > 1 then _ else _) = _
    by_cases h : 1 < d.c2.natAbs
    · rw [if_pos h, if_pos h, fdiv_neg_natAbs _ h]
    · rw [if_neg h, if_neg h]

theorem corr_neg (x : Int) : corr (-x) = - corr x := by
  unfold corr; split <;> split <;> (try split) <;> (try split) <;> omega

theorem cdiff_symm (L a b : Nat) : cdiff L a b = ⟨-(cdiff L b a).c1, -(cdiff L b a).c2⟩ := by
  unfold cdiff
  rw [wrappingCorrection_eq, wrappingCorrection_eq]
  apply Idx.ext'
  · show corr _ = - corr _
    rw [← corr_neg]; congr 1; simp [Idx.sub]
  · show corr _ = - corr _
    rw [← corr_neg]; congr 1; simp [Idx.sub]

theorem nbr_eq_of_bondAt_eq {k : Nat} (hk : k < L * L) {d d' : Dir} (h : bondAt L k d = bondAt L k d') :
    nbr L k d = nbr L k d' := by
  have h1 := otherEnd_mk (L := L) (V := LV.init) hk d
  have h2 := otherEnd_mk (L := L) (V := LV.init) hk d'
  rw [h, h2] at h1
  exact (Except.ok.inj h1).symm

/-! ### Consequences of the invariant -/

namespace Core
variable {V : LV} {P : PV}

theorem clusterOk (C : Core L V P) {g : Int} (h0 : 0 ≤ g) (h1 : g < (2 * (L * L) : Nat)) : ClusterOk L (2 * (L * L)) V P g :=
  ⟨h0, h1, C.memb g h0 h1, C.mems g h0 h1, C.nds g h0 h1⟩

theorem adj_range (C : Core L V P) {k : Nat} (hk : k < L * L) {g : Int} (h : Adj L V k g) :
    0 ≤ g ∧ g < (2 * (L * L) : Nat) := by
  obtain ⟨d, rfl⟩ := h
  exact C.bgr _ (bondAt_lt hk d)

theorem adj_nonempty (C : Core L V P) {k : Nat} (hk : k < L * L) {g : Int} (h : Adj L V k g) : P.cb g ≠ [] := by
  obtain ⟨d, rfl⟩ := h
  obtain ⟨h0, h1⟩ := C.bgr _ (bondAt_lt hk d)
  exact List.ne_nil_of_mem ((C.memb _ h0 h1 _).2 ⟨bondAt_lt hk d, rfl⟩)

theorem nbr_sg (C : Core L V P) {k : Nat} (hk : k < L * L) (d : Dir) (h : 0 ≤ V.sg (nbr L k d)) :
    V.sg (nbr L k d) = V.bg (bondAt L k d) := by
  rw [← bondAt_nbr_opp hk d]
  exact (C.inc _ _ ⟨nbr_lt hk d, h⟩).symm

/-- If a bond of the unoccupied site `k` has an unoccupied far end, its cluster has no sites. -/
theorem no_sites (C : Core L V P) {k : Nat} (hk : k < L * L) (hu : V.sg k < 0) (d : Dir) (hn : V.sg (nbr L k d) < 0)
    {s : Nat} (hs : s < L * L) (h : V.sg s = V.bg (bondAt L k d)) : False := by
  have hb := C.bgr _ (bondAt_lt hk d)
  have hs' : VOcc L V s := ⟨hs, by omega⟩
  have h1 := C.inc s .right hs'
  rw [h, C.conn _ _ (bondAt_lt hs _) (bondAt_lt hk d)] at h1
  have ends : ∀ x, VOcc L V x → Incident L x (bondAt L k d) → False := by
    intro x hx hi
    have : x = k ∨ x = nbr L k d := by
      rcases bondEnds_bondAt hk d with e | e <;> rcases hi with hi | hi <;> rw [e] at hi <;> simp at hi <;> simp [hi]
    rcases this with h | h
    · rw [h] at hx; have := hx.2; omega
    · rw [h] at hx; have := hx.2; omega
  rcases h1.symm.eq_or_occ with h2 | ⟨x, hx, hi⟩
  · exact ends s hs' (h2 ▸ incident_bondAt hs _)
  · exact ends x hx hi

end Core

/-- The root rule of `merge_clusters_v2`. -/
def RootRule (L : Nat) (V : LV) (P : PV) (k : Nat) (wrap : Bool) (wid r : Int) : Prop :=
  (wrap = true → Adj L V k wid → r = wid) ∧
  (¬ (wrap = true ∧ Adj L V k wid) → ∀ g, Adj L V k g → (P.cb g).length ≤ (P.cb r).length)

theorem mem_siteBonds {L k b : Nat} : b ∈ siteBonds L k ↔ ∃ d, b = bondAt L k d := by
  simp only [siteBonds, List.mem_cons, List.not_mem_nil, or_false]
  constructor
  · rintro (h | h | h | h)
    · exact ⟨_, h⟩
    · exact ⟨_, h⟩
    · exact ⟨_, h⟩
    · exact ⟨_, h⟩
  · rintro ⟨d, h⟩
    cases d <;> simp [h]

theorem mergeClustersV2_mk (env : Env α) {S : Perc α} {V : LV} {P : PV} (hS : S.lat = mkLat L { V with rel := upd V.rel k ⟨0, 0⟩ })
    (hP : S.pool = mkPool (2 * (L * L)) P) (C : Core L V P) (hk : k < L * L) (hu : V.sg k = -1) :
    ∃ V' P' r, S.mergeClustersV2 env k (siteBonds L k) =
        .ok ({ S with lat := mkLat L V', pool := mkPool (2 * (L * L)) P' }, r) ∧
      PlaceEffect L k r V V' P P' ∧ RootRule L V P k S.afterWrapping S.wrappingId r := by
  generalize hU : uniq V.bg (siteBonds L k) [] = U
  have hUd : ∀ b ∈ U, ∃ d, b = bondAt L k d := by
    intro b hb; rw [← hU] at hb; exact mem_siteBonds.1 (uniq_subset _ _ _ b hb)
  have hUn : (U.map V.bg).Nodup := by rw [← hU]; exact uniq_nodup _ _ _
  have hUm : ∀ g, g ∈ U.map V.bg ↔ Adj L V k g := by
    intro g
    constructor
    · intro h
      obtain ⟨b, hb, rfl⟩ := List.mem_map.1 h
      obtain ⟨d, rfl⟩ := hUd b hb
      exact ⟨d, rfl⟩
    · rintro ⟨d, rfl⟩
      rcases uniq_cover V.bg (siteBonds L k) [] _ (mem_siteBonds.2 ⟨d, rfl⟩) with h | h
      · simp at h
      · rwa [hU] at h
  -- gids of the unique bonds
  have e1 : Perc.uniqueBondLoop S.lat (siteBonds L k) [] = .ok U := by
    rw [hS, uniqueBondLoop_mk]
    · exact congrArg _ hU
    · intro b hb; obtain ⟨d, rfl⟩ := mem_siteBonds.1 hb; exact bondAt_lt hk d
  generalize hG : env.set.iter (U.map V.bg) = G
  have hGm : ∀ g, g ∈ G ↔ Adj L V k g := by intro g; rw [← hG, env.set.iter_mem, hUm]
  have e2 : S.getBondGids env U = .ok G := by
    simp only [Perc.getBondGids]
    rw [mapM_ok S.lat.getBondGid V.bg]
    · show Except.ok _ = _
      rw [hG]
    · intro b hb; obtain ⟨d, rfl⟩ := hUd b hb
      rw [hS, getBondGid_mk (bondAt_lt hk d)]
  obtain ⟨g0, Gt, hGc⟩ : ∃ g0 Gt, G = g0 :: Gt := by
    cases hg : G with
    | nil => exact absurd ((hGm (V.bg (bondAt L k .right))).2 ⟨_, rfl⟩) (by simp [hg])
    | cons a b => exact ⟨a, b, rfl⟩
  have hg0 : Adj L V k g0 := (hGm g0).1 (by simp [hGc])
  have e3 : pyGet G 0 = .ok g0 := by rw [hGc]; rfl
  -- the root
  obtain ⟨r, e4, hrA, hrule⟩ : ∃ r, Perc.chooseRoot S.pool (S.afterWrapping && decide (S.wrappingId ∈ G)) S.wrappingId G g0 0 = .ok r ∧
      Adj L V k r ∧ RootRule L V P k S.afterWrapping S.wrappingId r := by
    by_cases hw : S.afterWrapping = true ∧ S.wrappingId ∈ G
    · refine ⟨S.wrappingId, ?_, (hGm _).1 hw.2, fun _ _ => rfl, fun h => absurd ⟨hw.1, (hGm _).1 hw.2⟩ h⟩
      rw [show (S.afterWrapping && decide (S.wrappingId ∈ G)) = true by simp [hw.1, hw.2], hGc]
      exact chooseRoot_wrap _ _ _ _ _ _
    · have : (S.afterWrapping && decide (S.wrappingId ∈ G)) = false := by
        rw [Bool.and_eq_false_iff]
        by_cases h : S.afterWrapping = true
        · right; simp only [decide_eq_false_iff_not]; exact fun h' => hw ⟨h, h'⟩
        · left; simpa using h
      rw [this, hP]
      obtain ⟨r, e, hr, _, hmax⟩ := chooseRoot_max (N := 2 * (L * L)) (P := P) S.wrappingId G g0 0
        (fun g hg => C.adj_range hk ((hGm g).1 hg)) (Nat.zero_le _)
      have hrA : Adj L V k r := by
        rcases hr with h | h
        · rw [h]; exact hg0
        · exact (hGm r).1 h
      refine ⟨r, e, hrA, fun h1 h2 => absurd ⟨h1, (hGm _).2 h2⟩ hw, fun _ g hg => hmax g ((hGm g).2 hg)⟩
  obtain ⟨r0, r1⟩ := C.adj_range hk hrA
  have hcg : P.cg r = r := C.cgok r r0 r1 (C.adj_nonempty hk hrA)
  obtain ⟨d0, hd0, hd0r⟩ : ∃ d, bondAt L k d ∈ U ∧ V.bg (bondAt L k d) = r := by
    obtain ⟨b, hb, hbr⟩ := List.mem_map.1 ((hUm r).2 hrA)
    obtain ⟨d, rfl⟩ := hUd b hb
    exact ⟨d, hb, hbr⟩
  have e5 := assignLoop_mk (N := 2 * (L * L)) hS hP hk r0 r1 U hUd hUn d0 hd0 hd0r
  generalize hrk : relK L { V with rel := upd V.rel k ⟨0, 0⟩ } k r d0 = rk at e5
  generalize hV1 : ({ V with
    sg := upd V.sg k r
    rel := upd (upd V.rel k ⟨0, 0⟩) k rk } : LV) = V1
  generalize hP1 : ({ P with cs := updI P.cs r (P.cs r ++ [k]) } : PV) = P1
  have hbg1 : V1.bg = V.bg := by rw [← hV1]
  have hsg1 : V1.sg = upd V.sg k r := by rw [← hV1]
  have hrel1 : ∀ x, V1.rel x = if x = k then rk else V.rel x := by
    intro x; rw [← hV1]; show upd (upd V.rel k _) k rk x = _
    by_cases hx : x = k <;> simp [upd, hx]
  have hcb1 : P1.cb = P.cb := by rw [← hP1]
  have hcs1 : ∀ g, g ≠ r → P1.cs g = P.cs g := by intro g hg; rw [← hP1]; show updI _ _ _ g = _; simp [updI, hg]
  have hcsr : P1.cs r = P.cs r ++ [k] := by rw [← hP1]; show updI _ _ _ r = _; simp [updI]
  have e5' : Perc.assignLoop k r U S = .ok { S with lat := mkLat L V1, pool := mkPool (2 * (L * L)) P1 } := by
    rw [e5, ← hV1, ← hP1]
  have hnk : ∀ d, 0 ≤ V.sg (nbr L k d) → nbr L k d ≠ k := by
    intro d h h'; rw [h', hu] at h; omega
  have hsgne : ∀ x, x ≠ k → V1.sg x = V.sg x := by intro x hx; rw [hsg1]; simp [upd, hx]
  have hsgk : V1.sg k = r := by rw [hsg1]; simp
  obtain ⟨V', P2, e6, M⟩ := mergeLoop_mk (N := 2 * (L * L)) hk r0 r1 U
    (S := { S with lat := mkLat L V1, pool := mkPool (2 * (L * L)) P1 }) (V := V1) (P := P1) rfl rfl
    (by rw [← hP1]; exact hcg) hsgk hUd (by rw [hbg1]; exact hUn)
    (by
      intro b hb hne
      obtain ⟨d, rfl⟩ := hUd b hb
      rw [hbg1] at hne ⊢
      obtain ⟨h0, h1⟩ := C.bgr _ (bondAt_lt hk d)
      have hO := C.clusterOk h0 h1
      refine ⟨h0, h1, ?_, ?_, ?_⟩
      · rw [hbg1, hcb1]; exact hO.memb
      · intro x
        rw [hcs1 _ hne, hO.mems x]
        by_cases hx : x = k
        · rw [hx, hsgk, hu]
          constructor
          · rintro ⟨_, h⟩; omega
          · rintro ⟨_, h⟩; exact absurd h.symm hne
        · rw [hsgne x hx]
      · rw [hcs1 _ hne]; exact hO.nds)
    (by
      intro d _
      by_cases hx : nbr L k d = k
      · right; right; rw [hx]; exact hsgk
      · rw [hsgne _ hx, hbg1]
        by_cases h0 : 0 ≤ V.sg (nbr L k d)
        · left; exact C.nbr_sg hk d h0
        · right; left; omega)
  have e7 := clearLoop_mk (N := 2 * (L * L)) r G (P := P2) (fun g hg => C.adj_range hk ((hGm g).1 hg))
  refine ⟨V', { P2 with
      cs := fun g => if g ∈ G ∧ g ≠ r then [] else P2.cs g
      cb := fun g => if g ∈ G ∧ g ≠ r then [] else P2.cb g
      cg := fun g => if g ∈ G ∧ g ≠ r then -1 else P2.cg g
      ci := fun g => if g ∈ G ∧ g ≠ r then -1 else P2.ci g }, r, ?_, ?_, hrule⟩
  · simp only [Perc.mergeClustersV2, e1]
    show (S.getBondGids env U >>= _) = _
    rw [e2]
    show (pyGet G 0 >>= _) = _
    rw [e3]
    show (Perc.chooseRoot _ _ _ _ _ _ >>= _) = _
    rw [e4]
    show (Perc.assignLoop k r U S >>= _) = _
    rw [e5']
    show (Perc.mergeLoop k r U _ >>= _) = _
    rw [e6]
    show (Perc.clearLoop r G (mkPool _ P2) >>= _) = _
    rw [e7]
    rfl
  · have hmap : U.map V1.bg = U.map V.bg := by rw [hbg1]
    have hkm : ∀ x, x ≠ k → ¬ Adj L V k (V.sg x) → V1.sg x ∉ U.map V1.bg := by
      intro x hx h; rw [hmap, hUm, hsgne x hx]; exact h
    have hadjU : ∀ g, Adj L V k g → ∃ d, bondAt L k d ∈ U ∧ V.bg (bondAt L k d) = g := by
      intro g hg
      obtain ⟨b, hb, hbr⟩ := List.mem_map.1 ((hUm g).2 hg)
      obtain ⟨d, rfl⟩ := hUd b hb
      exact ⟨d, hb, hbr⟩
    have hrelk : V'.rel k = rk := by
      rw [M.relKept k hk (Or.inr hsgk), hrel1]; simp
    -- translation of each old cluster
    have htr : ∀ g, 0 ≤ g → ∃ δ : Idx, (g = r → δ = ⟨0, 0⟩) ∧ ∀ x < L * L, V.sg x = g → V'.rel x = (V.rel x).add δ := by
      intro g hg0
      by_cases hgr : g = r ∨ ¬ Adj L V k g
      · refine ⟨⟨0, 0⟩, fun _ => rfl, ?_⟩
        intro x hx hxg
        have hxk : x ≠ k := by rintro rfl; omega
        rw [M.relKept x hx, hrel1, if_neg hxk]
        · apply Idx.ext' <;> simp [Idx.add]
        · rcases hgr with h | h
          · right; rw [hsgne x hxk, hxg, h]
          · left; apply hkm x hxk; rw [hxg]; exact h
      · have hgr1 : g ≠ r := fun h => hgr (Or.inl h)
        have hgr2 : Adj L V k g := Classical.not_not.1 fun h => hgr (Or.inr h)
        obtain ⟨d, hd, hdg⟩ := hadjU g hgr2
        refine ⟨((V1.rel k).add (cdiff L k (nbr L k d))).sub (V1.rel (nbr L k d)), fun h => absurd h hgr1, ?_⟩
        intro x hx hxg
        have hxk : x ≠ k := by rintro rfl; omega
        rw [M.relMoved d hd (by rw [hbg1, hdg]; exact hgr1) x hx (by rw [hbg1, hdg, hsgne x hxk, hxg]), hrel1 x, if_neg hxk]
    constructor
    case adj => exact hrA
    case bgAdj => intro b hb h; rw [M.bg b hb, hmap, if_pos]; rw [hbg1, hUm]; exact h
    case bgFar => intro b hb h; rw [M.bg b hb, hmap, if_neg]; · rw [hbg1]
                  · rw [hbg1, hUm]; exact h
    case sgSelf => rw [M.sg k hk, hsgk]; split <;> rfl
    case sgAdj =>
      intro s hs h
      by_cases hsk : s = k
      · rw [hsk, M.sg k hk, hsgk]; split <;> rfl
      · rw [M.sg s hs, if_pos]; rw [hmap, hUm, hsgne s hsk]; exact h
    case sgFar => intro s hs hsk h; rw [M.sg s hs, if_neg (hkm s hsk h), hsgne s hsk]
    case n1 => rw [M.n1, ← hV1]
    case n2 => rw [M.n2, ← hV1]
    case relFar =>
      intro s hs hsk h
      rw [M.relKept s hs (Or.inl (hkm s hsk h)), hrel1, if_neg hsk]
    case relRoot =>
      intro s hs h
      obtain ⟨δ, h0, hδ⟩ := htr _ r0
      rw [hδ s hs h, h0 rfl]
      apply Idx.ext' <;> simp [Idx.add]
    case relTrans =>
      intro s hs t ht h0 hst
      obtain ⟨δ, _, hδ⟩ := htr _ h0
      rw [hδ s hs rfl, hδ t ht hst]
      apply Idx.ext' <;> simp [Idx.add, Idx.sub]
    case anchor =>
      intro d
      obtain ⟨d', hd', hdg⟩ := hadjU _ ⟨d, rfl⟩
      refine ⟨d', hdg, fun h0 => ?_⟩
      have hn := hnk d' h0
      have hnl := nbr_lt hk d'
      have hng := C.nbr_sg hk d' h0
      rw [hrelk]
      by_cases hr : V.bg (bondAt L k d') = r
      · have hbb : bondAt L k d' = bondAt L k d0 := by
          have := List.inj_on_of_nodup_map hUn hd' hd0 (by rw [hr, hd0r])
          exact this
        have hnn := nbr_eq_of_bondAt_eq hk hbb
        obtain ⟨δ, hδ0, hδ⟩ := htr _ h0
        rw [hδ _ hnl rfl, hδ0 (by rw [hng, hr])]
        have : rk = (V.rel (nbr L k d')).add (cdiff L (nbr L k d') k) := by
          rw [← hrk]; simp only [relK]
          rw [← hnn, if_pos (by simp [upd, hn]; exact h0)]
          simp [upd, hn]
        rw [this, cdiff_symm L (nbr L k d') k]
        apply Idx.ext' <;> simp [Idx.add, Idx.sub]
      · rw [M.relMoved d' hd' (by rw [hbg1]; exact hr) _ hnl (by rw [hbg1, hsgne _ hn, hng]), hrel1 k, if_pos rfl]
        apply Idx.ext' <;> simp [Idx.add, Idx.sub]
    case relNew =>
      intro h
      rw [hrelk, ← hrk]
      simp only [relK]
      by_cases hn : nbr L k d0 = k
      · rw [hn]; simp only [upd_same]
        rw [if_pos r0]
        have : cdiff L k k = ⟨0, 0⟩ := by
          unfold cdiff; rw [wrappingCorrection_eq]; apply Idx.ext' <;> simp [Idx.sub, corr]
        rw [this]; rfl
      · rw [if_neg (by simp only [upd, hn, if_false]; have := h d0; omega)]
        simp
    case cbCleared => intro g hg hgr; exact if_pos ⟨(hGm g).2 hg, hgr⟩
    case csCleared => intro g hg hgr; exact if_pos ⟨(hGm g).2 hg, hgr⟩
    case idCleared => intro g hg hgr; exact ⟨if_pos ⟨(hGm g).2 hg, hgr⟩, if_pos ⟨(hGm g).2 hg, hgr⟩⟩
    case cbKept =>
      intro g hg
      have hgr : g ≠ r := by rintro rfl; exact hg hrA
      refine (if_neg fun h => hg ((hGm g).1 h.1)).trans ?_
      rw [M.cbKept g hgr, hcb1]
    case csKept =>
      intro g hg
      have hgr : g ≠ r := by rintro rfl; exact hg hrA
      refine (if_neg fun h => hg ((hGm g).1 h.1)).trans ?_
      rw [M.csKept g hgr, hcs1 g hgr]
    case cgKept =>
      intro g hg
      refine (if_neg fun h => ?_).trans ?_
      · rcases hg with hg | hg
        · exact hg ((hGm g).1 h.1)
        · exact h.2 hg
      · rw [M.cg, ← hP1]
    case ciKept =>
      intro g hg
      refine (if_neg fun h => ?_).trans ?_
      · rcases hg with hg | hg
        · exact hg ((hGm g).1 h.1)
        · exact h.2 hg
      · rw [M.ci, ← hP1]
    case cbRoot =>
      refine ⟨(U.filter fun b => decide (V.bg b ≠ r)).map V.bg, ?_, ?_, ?_⟩
      · exact (List.Sublist.map V.bg List.filter_sublist).nodup hUn
      · intro g
        rw [List.mem_map]
        constructor
        · rintro ⟨b, hb, rfl⟩
          rw [List.mem_filter] at hb
          exact ⟨(hUm _).1 (List.mem_map_of_mem hb.1), by simpa using hb.2⟩
        · rintro ⟨h1, h2⟩
          obtain ⟨b, hb, rfl⟩ := List.mem_map.1 ((hUm g).2 h1)
          exact ⟨b, List.mem_filter.2 ⟨hb, by simpa using h2⟩, rfl⟩
      · refine (if_neg fun h => h.2 rfl).trans ?_
        rw [M.cbRoot, hcb1, hbg1, List.flatMap_map]
    case csRoot =>
      refine ⟨(U.filter fun b => decide (V.bg b ≠ r)).map V.bg, ?_, ?_, ?_⟩
      · exact (List.Sublist.map V.bg List.filter_sublist).nodup hUn
      · intro g
        rw [List.mem_map]
        constructor
        · rintro ⟨b, hb, rfl⟩
          rw [List.mem_filter] at hb
          exact ⟨(hUm _).1 (List.mem_map_of_mem hb.1), by simpa using hb.2⟩
        · rintro ⟨h1, h2⟩
          obtain ⟨b, hb, rfl⟩ := List.mem_map.1 ((hUm g).2 h1)
          exact ⟨b, List.mem_filter.2 ⟨hb, by simpa using h2⟩, rfl⟩
      · refine (if_neg fun h => h.2 rfl).trans ?_
        rw [M.csRoot, hcsr, hbg1, List.flatMap_map]
        congr 1
        apply List.flatMap_congr
        intro b hb
        rw [List.mem_filter] at hb
        exact hcs1 _ (by simpa using hb.2)

end SqPerc
