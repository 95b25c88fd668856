import Verif.Model.Access
import Verif.Proof.Roots
import Verif.Props.Wrapping
import Verif.Props.Clusters
/-
C81: the root sites, that is the occupied sites with relative index (0, 0), are representatives of the clusters.
-/
namespace SqPerc

variable {α : Type} {L : Nat} {v : Variant} {env : Env α} {S S' : Perc α}

/-- `get_site_by_id(t).is_root()` is True. -/
def Perc.RootSite (S : Perc α) (t : Nat) : Prop := ∃ tt, S.lat.getSite t = .ok tt ∧ tt.isRoot = true

/-- The same as a Boolean, for examples. -/
def Perc.rootB (S : Perc α) (t : Nat) : Bool := match S.lat.getSite t with | .ok tt => tt.isRoot | .error _ => false

theorem Perc.rootB_iff {S : Perc α} {t : Nat} : S.rootB t = true ↔ S.RootSite t := by
  unfold Perc.rootB Perc.RootSite
  cases h : S.lat.getSite t with
  | error e => simp
  | ok tt => simp

theorem Sim.rootSite {A : Abs α} (M : Sim env L S A) {t : Nat} (ht : t < L * L) : S.RootSite t ↔ A.V.rel t = ⟨0, 0⟩ := by
  unfold Perc.RootSite
  rw [M.lat, getSite_mk ht]
  constructor
  · rintro ⟨tt, e, h⟩
    obtain rfl := Except.ok.inj e
    simp only [Site.isRoot, Bool.and_eq_true, decide_eq_true_eq] at h
    exact Idx.ext' h.1 h.2
  · intro h
    refine ⟨_, rfl, ?_⟩
    simp only [Site.isRoot, Bool.and_eq_true, decide_eq_true_eq]
    show (A.V.rel t).c1 = 0 ∧ (A.V.rel t).c2 = 0
    rw [h]; exact ⟨rfl, rfl⟩

/-- C81: every connected component of the occupied sites contains exactly one site whose `is_root()` is True, after any history of calls and
also after wrapping. -/
theorem C81_one_root (h : Reach env v L S) {s : Nat} (hs : S.Occ s) : ∃! t, S.Occ t ∧ S.RootSite t ∧ SiteConn L S.Occ s t := by
  obtain ⟨_, A, M, hA⟩ := h.sim
  have hs' := (M.occ_iff s).1 hs
  obtain ⟨t, ht, hg, h0⟩ := hA.rooted s hs'
  have hto := (M.occ_iff t).2 ht
  refine ⟨t, ⟨hto, (M.rootSite ht.1).2 h0, ?_⟩, ?_⟩
  · rw [← C07_same_gid_iff_connected h hs hto, M.siteGid hs'.1, M.siteGid ht.1, hg]
  · rintro u ⟨huo, hur, huc⟩
    have hu' := (M.occ_iff u).1 huo
    rw [← C07_same_gid_iff_connected h hs huo, M.siteGid hs'.1, M.siteGid hu'.1] at huc
    have e := Except.ok.inj huc
    exact hA.rel_inj hu' ht (e.symm.trans hg.symm) (((M.rootSite hu'.1).1 hur).trans h0.symm)

/-- C81: for `L ≥ 3` the relative index of an occupied site is the displacement of a walk through occupied sites from the root of its
cluster to the site. -/
theorem C81_walk_from_root (hL : 3 ≤ L) (h : Reach env v L S) {s t : Nat} {st : Site} (ht : S.Occ t) (hr : S.RootSite t)
    (hc : SiteConn L S.Occ s t) (hs : S.Occ s) (e : S.lat.getSite s = .ok st) : Walk L S.Occ t s (st.rel.c1, st.rel.c2) := by
  obtain ⟨tt, et, hr⟩ := hr
  have hg := (C07_same_gid_iff_connected h hs ht).2 hc
  simp only [Lattice.getSiteGid, e, et, bind, Except.bind, pure, Except.pure] at hg
  have hg := Except.ok.inj hg
  have h0 : 0 ≤ tt.gid := by
    obtain ⟨x, ex, hx⟩ := ht
    rw [et] at ex
    obtain rfl := Except.ok.inj ex
    simpa [Site.isOccupied] using hx
  have := (C53_relative_index_lift hL h et e h0 hg.symm).1
  simp only [Site.isRoot, Bool.and_eq_true, decide_eq_true_eq] at hr
  rwa [hr.1, hr.2, sub_zero, sub_zero] at this

/-- C81: on the lattices of length 1 and 2 the relative index is the index of the site minus that of the root. -/
theorem C81_small (hL : L ≤ 2) (h : Reach env v L S) {s t : Nat} {st tt : Site} (ht : S.Occ t) (hr : S.RootSite t)
    (hc : SiteConn L S.Occ s t) (hs : S.Occ s) (e : S.lat.getSite s = .ok st) (et : S.lat.getSite t = .ok tt) :
    st.rel = st.index.sub tt.index := by
  have hg := (C07_same_gid_iff_connected h hs ht).2 hc
  obtain ⟨_, A, M, hA⟩ := h.sim
  have hs' := (M.occ_iff s).1 hs
  have ht' := (M.occ_iff t).1 ht
  have h0 := (M.rootSite ht'.1).1 hr
  rw [M.siteGid hs'.1, M.siteGid ht'.1] at hg
  have hd := (hA.wrap.flat hL).1 t s ht' hs' (Except.ok.inj hg).symm
  rw [M.lat] at e et
  obtain ⟨_, rfl⟩ := getSite_ok e
  obtain ⟨_, rfl⟩ := getSite_ok et
  have e1 := congrArg Prod.fst hd
  have e2 := congrArg Prod.snd hd
  unfold LV.dr Idx.pr at e1 e2
  rw [h0] at e1 e2
  simp only [Prod.fst_sub, Prod.snd_sub, sub_zero] at e1 e2
  exact Idx.ext' e1 e2

/-- C81: what a successful `place_one_site` does to the roots.  The placed site becomes a root exactly when none of its neighbours was
occupied; a site that was occupied before is a root afterwards exactly when it was one before and its gid has not changed.  So the roots of
the clusters that are absorbed stop being roots and no site becomes one later than at its placement. -/
theorem C81_place (h : Reach env v L S) {d : Draw} {b : Bool} (hp : S.placeOneSite env v d = .ok (S', b))
    (hf : S'.selectionFlag = some .success) :
    ∃ k, S'.selected = some k ∧ ¬ S.Occ k ∧ S'.Occ k ∧ (S'.RootSite k ↔ ∀ d, ¬ S.Occ (nbr L k d)) ∧
      ∀ t, S.Occ t → (S'.RootSite t ↔ S.RootSite t ∧ S'.lat.getSiteGid t = S.lat.getSiteGid t) := by
  obtain ⟨_, A, M, hA⟩ := h.sim
  obtain ⟨_, V1, hV, h | h | h⟩ := placeOneSite_sim M hA.inv hp
  rotate_left
  · rw [h.1] at hf; cases hf
  · rw [h.1] at hf; cases hf
  obtain ⟨_, _, k, r, V', P', hk, hg, E, hr, hsel, M'⟩ := h
  have hA1 : AReach env L { A with V := V1 } := hA.step (.tick hV)
  have hg1 : V1.sg k = -1 := by rw [hV.1]; exact hg
  have hA' : AReach env L (({ A with V := V1 } : Abs α).placed env L k r V' P') := hA1.step (.place hk hg1 E hr)
  have C : Core L V1 A.P := hA1.inv.core
  have hw : A.aw = true → ∃ s, VOcc L V1 s ∧ V1.sg s = A.wid := fun ha => by
    obtain ⟨s, h1, h2, _⟩ := hA1.wrap.on ha
    exact ⟨s, h1, h2⟩
  have occ1 : ∀ s, S.Occ s ↔ VOcc L V1 s := fun s => by rw [M.occ_iff, hV.vocc]
  have occ' : ∀ s, S'.Occ s ↔ VOcc L V' s := fun s => M'.occ_iff s
  have root1 : ∀ s < L * L, (S.RootSite s ↔ V1.rel s = ⟨0, 0⟩) := fun s hs => by rw [M.rootSite hs, hV.2.1]
  have root' : ∀ s < L * L, (S'.RootSite s ↔ V'.rel s = ⟨0, 0⟩) := fun s hs => M'.rootSite hs
  have inj' : ∀ s t, VOcc L V' s → VOcc L V' t → V'.sg s = V'.sg t → V'.rel s = ⟨0, 0⟩ → V'.rel t = ⟨0, 0⟩ → s = t :=
    fun s t h1 h2 h3 h4 h5 => hA'.rel_inj (s := s) (t := t) h1 h2 h3 (h4.trans h5.symm)
  have hko : VOcc L V' k := (E.occ_iff C hk k).2 (Or.inr rfl)
  -- with an occupied neighbour, an old root keeps being the root of the merged cluster
  have old : ∀ d, VOcc L V1 (nbr L k d) → ∃ t, VOcc L V1 t ∧ V1.sg t = r ∧ VOcc L V' t ∧ V'.sg t = r ∧ V'.rel t = ⟨0, 0⟩ := by
    intro d hd
    obtain ⟨s, hs, hsr⟩ := E.root_site C hk hg1 hr hw hd
    obtain ⟨t, ht, hts, ht0⟩ := hA1.rooted s hs
    have htr : V1.sg t = r := hts.trans hsr
    exact ⟨t, ht, htr, (E.occ_iff C hk t).2 (Or.inl ht), E.sgAdj t ht.1 (htr ▸ E.adj), (E.relRoot t ht.1 htr).trans ht0⟩
  refine ⟨k, hsel, ?_, (occ' k).2 hko, ?_, ?_⟩
  · rw [occ1]; rintro ⟨_, h0⟩; omega
  · rw [root' k hk]
    constructor
    · intro h0 d hd
      obtain ⟨t, t1, t2, t3, t4, t5⟩ := old d ((occ1 _).1 hd)
      have := inj' t k t3 hko (t4.trans E.sgSelf.symm) t5 h0
      rw [this] at t1
      have := t1.2
      omega
    · intro hn
      refine E.relNew fun d => ?_
      by_contra hc
      exact hn d ((occ1 _).2 ⟨nbr_lt hk d, by omega⟩)
  · intro t ht
    have ht := (occ1 t).1 ht
    have htk : t ≠ k := by rintro rfl; have := ht.2; omega
    have ht' : VOcc L V' t := (E.occ_iff C hk t).2 (Or.inl ht)
    rw [root' t ht.1, root1 t ht.1, M.siteGid ht.1, M'.siteGid ht.1]
    have hsg : A.V.sg t = V1.sg t := (congrFun hV.1 t).symm
    rw [hsg]
    show _ ↔ _ ∧ Except.ok (V'.sg t) = _
    by_cases ha : Adj L V1 k (V1.sg t)
    · by_cases hrt : V1.sg t = r
      · rw [E.relRoot t ht.1 hrt, E.sgAdj t ht.1 ha, hrt]
        exact ⟨fun h => ⟨h, rfl⟩, fun h => h.1⟩
      · rw [E.sgAdj t ht.1 ha]
        constructor
        · intro h0
          obtain ⟨d0, hd0⟩ := ha
          have hn := C.nbr_occ hk hg1 ht hd0
          obtain ⟨u, u1, u2, u3, u4, u5⟩ := old d0 hn
          have := inj' u t u3 ht' (u4.trans (E.sgAdj t ht.1 ⟨d0, hd0⟩).symm) u5 h0
          rw [this] at u2
          exact absurd u2 hrt
        · rintro ⟨_, e⟩
          exact absurd (Except.ok.inj e).symm hrt
    · rw [E.relFar t ht.1 htk ha, E.sgFar t ht.1 htk ha]
      exact ⟨fun h => ⟨h, rfl⟩, fun h => h.1⟩

/-- The sites 0, 1, 12 and 3 of a lattice of length 5, and then 2, which joins the clusters {0, 1} and {3}: 3 was a root and is not any
more, 0 and 12 still are. -/
example : ∃ (S S' : Perc Unit) (d : Draw) (b : Bool), Reach demoEnv .l0 5 S ∧ S.placeOneSite demoEnv .l0 d = .ok (S', b) ∧
    S'.selectionFlag = some .success ∧ S.Occ 3 ∧ S.RootSite 3 ∧ ¬ S'.RootSite 3 ∧ ¬ S'.RootSite 2 ∧ S'.RootSite 0 ∧ S'.RootSite 12 := by
  obtain ⟨S, h, hp⟩ := checkOps_reach (env := demoEnv) (v := .l0) (L := 5) (ops := placeInOrder [0, 1, 12, 3, 2] 4)
    (p := fun S => S.occB 3 && (S.rootB 3 && match S.placeOneSite demoEnv .l0 ⟨0, 0⟩ with
      | .ok (S', _) => decide (S'.selectionFlag = some .success) && (!S'.rootB 3 && (!S'.rootB 2 && (S'.rootB 0 && S'.rootB 12)))
      | .error _ => false)) (by decide +kernel)
  rw [Bool.and_eq_true, Bool.and_eq_true] at hp
  obtain ⟨h1, h2, h3⟩ := hp
  split at h3
  · rename_i S' b e
    simp only [Bool.and_eq_true, Bool.not_eq_true', Perc.rootB_iff, decide_eq_true_eq, ← Bool.not_eq_true] at h3
    exact ⟨S, S', _, b, h, e, h3.1, Perc.occB_iff.1 h1, Perc.rootB_iff.1 h2, h3.2.1, h3.2.2.1, h3.2.2.2.1, h3.2.2.2.2⟩
  · cases h3

/-- A lattice of length 2 with two occupied neighbours. -/
example : ∃ S : Perc Unit, Reach demoEnv .l0 2 S ∧ S.Occ 3 ∧ S.Occ 1 ∧ S.RootSite 3 ∧ SiteConn 2 S.Occ 1 3 := by
  obtain ⟨S, h, hp⟩ := checkOps_reach (env := demoEnv) (v := .l0) (L := 2) (ops := placeInOrder [3, 1] 2)
    (p := fun S => S.occB 3 && (S.occB 1 && (S.rootB 3 && (match S.lat.getSiteGid 3 with | .ok g => isOk (S.lat.getSiteGid 1) g | .error _ => false)))) (by decide +kernel)
  simp only [Bool.and_eq_true, Perc.occB_iff, Perc.rootB_iff] at hp
  obtain ⟨h1, h2, h3, h4⟩ := hp
  refine ⟨S, h, h1, h2, h3, (C07_same_gid_iff_connected h h2 h1).1 ?_⟩
  split at h4
  · rename_i g e
    rw [e]; exact isOk_iff.1 h4
  · cases h4

end SqPerc
