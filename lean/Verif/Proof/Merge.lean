import Verif.Proof.View
/-
The effect of `merge_clusters_v2` on the views.
-/
namespace SqPerc

set_option linter.unusedTactic false

/-- `(row, column)` of site `i`. -/
def sidx (L i : Nat) : Idx := ⟨(i / L : Nat), (i % L : Nat)⟩

/-- Corrected index difference between two neighbouring sites. -/
def cdiff (L a b : Nat) : Idx := wrappingCorrection ((sidx L b).sub (sidx L a))

/-- First bond of every gid, in order. -/
def uniq (bg : Nat → Int) : List Nat → List Int → List Nat
  | [], _ => []
  | b :: bs, seen => if bg b ∈ seen then uniq bg bs seen else b :: uniq bg bs (seen ++ [bg b])

theorem uniq_subset (bg : Nat → Int) (bs : List Nat) (seen : List Int) : ∀ b ∈ uniq bg bs seen, b ∈ bs := by
  induction bs generalizing seen with
  | nil => simp [uniq]
  | cons b bs ih =>
    intro x hx
    unfold uniq at hx
    split at hx
    · exact List.mem_cons_of_mem _ (ih _ _ hx)
    · rcases List.mem_cons.1 hx with h | h
      · simp [h]
      · exact List.mem_cons_of_mem _ (ih _ _ h)

theorem uniq_not_seen (bg : Nat → Int) (bs : List Nat) (seen : List Int) : ∀ b ∈ uniq bg bs seen, bg b ∉ seen := by
  induction bs generalizing seen with
  | nil => simp [uniq]
  | cons b bs ih =>
    intro x hx
    unfold uniq at hx
    split at hx
    · exact ih _ _ hx
    · next h0 =>
      rcases List.mem_cons.1 hx with h | h
      · rw [h]; exact h0
      · intro h1; exact ih _ _ h (by simp [h1])

theorem uniq_nodup (bg : Nat → Int) (bs : List Nat) (seen : List Int) : ((uniq bg bs seen).map bg).Nodup := by
  induction bs generalizing seen with
  | nil => simp [uniq]
  | cons b bs ih =>
    unfold uniq
    split
    · exact ih _
    · rw [List.map_cons, List.nodup_cons]
      refine ⟨?_, ih _⟩
      intro h
      obtain ⟨x, hx, hxb⟩ := List.mem_map.1 h
      exact uniq_not_seen _ _ _ x hx (by simp [hxb])

theorem uniq_cover (bg : Nat → Int) (bs : List Nat) (seen : List Int) :
    ∀ b ∈ bs, bg b ∈ seen ∨ bg b ∈ (uniq bg bs seen).map bg := by
  induction bs generalizing seen with
  | nil => simp
  | cons b bs ih =>
    intro x hx
    unfold uniq
    split
    · next h0 =>
      rcases List.mem_cons.1 hx with h | h
      · left; rw [h]; exact h0
      · exact ih _ x h
    · next h0 =>
      rcases List.mem_cons.1 hx with h | h
      · right; simp [h]
      · rcases ih (seen ++ [bg b]) x h with h1 | h1
        · rcases List.mem_append.1 h1 with h2 | h2
          · exact Or.inl h2
          · right; rw [List.mem_singleton.1 h2]; simp
        · right; exact List.mem_cons_of_mem _ h1

variable {α : Type} {L N : Nat} {V : LV} {P : PV}

theorem uniqueBondLoop_mk (bs : List Nat) (seen : List Int) (h : ∀ b ∈ bs, b < 2 * (L * L)) :
    Perc.uniqueBondLoop (mkLat L V) bs seen = .ok (uniq V.bg bs seen) := by
  induction bs generalizing seen with
  | nil => rfl
  | cons b bs ih =>
    have ih' := fun s => ih s (fun x hx => h x (by simp [hx]))
    simp only [Perc.uniqueBondLoop, getBondGid_mk (h b (by simp)), uniq]
    show (if V.bg b ∈ seen then _ else _) = _
    split
    · exact ih' _
    · rw [ih']; rfl

theorem mapM_ok {β γ : Type} (f : β → Py γ) (g : β → γ) (l : List β) (h : ∀ b ∈ l, f b = .ok (g b)) :
    l.mapM f = .ok (l.map g) := by
  induction l with
  | nil => rfl
  | cons b l ih =>
    rw [List.mapM_cons, h b (by simp), ih (fun x hx => h x (by simp [hx]))]; rfl

theorem getRelativeIndex_mk {c n : Nat} (hc : c < L * L) (hn : n < L * L) :
    getRelativeIndex (mkLat L V) c n = .ok ((V.rel c).add (cdiff L c n)) := by
  simp only [getRelativeIndex, getSite_mk hc, getSite_mk hn]; rfl

/-! ### Choice of the root -/

theorem chooseRoot_wrap (pool : ClusterPool) (wid : Int) (g : Int) (gs : List Int) (root : Int) (ref : Nat) :
    Perc.chooseRoot pool true wid (g :: gs) root ref = .ok wid := rfl

theorem chooseRoot_max (wid : Int) (gs : List Int) (root : Int) (ref : Nat)
    (h : ∀ g ∈ gs, 0 ≤ g ∧ g < N) (hroot : ref ≤ (P.cb root).length) :
    ∃ r, Perc.chooseRoot (mkPool N P) false wid gs root ref = .ok r ∧ (r = root ∨ r ∈ gs) ∧
      ref ≤ (P.cb r).length ∧ (∀ g ∈ gs, (P.cb g).length ≤ (P.cb r).length) := by
  induction gs generalizing root ref with
  | nil => exact ⟨root, rfl, Or.inl rfl, hroot, by simp⟩
  | cons g gs ih =>
    obtain ⟨g0, g1⟩ := h g (by simp)
    have ih' := fun ro re => ih ro re (fun x hx => h x (by simp [hx]))
    simp only [Perc.chooseRoot, bondCount_mk g0 g1]
    show ∃ r, (if (P.cb g).length ≥ ref then _ else _) = _ ∧ _
    by_cases hc : (P.cb g).length ≥ ref
    · rw [if_pos hc]
      obtain ⟨r, e, hr, h1, h2⟩ := ih' g (P.cb g).length (Nat.le_refl _)
      refine ⟨r, e, ?_, by omega, ?_⟩
      · rcases hr with hr | hr <;> simp [hr]
      · intro x hx
        rcases List.mem_cons.1 hx with hx | hx
        · rw [hx]; exact h1
        · exact h2 x hx
    · rw [if_neg hc]
      obtain ⟨r, e, hr, h1, h2⟩ := ih' root ref hroot
      refine ⟨r, e, ?_, h1, ?_⟩
      · rcases hr with hr | hr <;> simp [hr]
      · intro x hx
        rcases List.mem_cons.1 hx with hx | hx
        · rw [hx]; omega
        · exact h2 x hx

/-! ### The selected site joins the root -/

theorem assignLoop_skip {S : Perc α} (hS : S.lat = mkLat L V) (k : Nat) (r : Int) (ub : List Nat)
    (h : ∀ b ∈ ub, b < 2 * (L * L) ∧ V.bg b ≠ r) : Perc.assignLoop k r ub S = .ok S := by
  induction ub with
  | nil => rfl
  | cons b bs ih =>
    obtain ⟨h1, h2⟩ := h b (by simp)
    simp only [Perc.assignLoop, hS, getBondGid_mk h1]
    show (if V.bg b = r then _ else _) = _
    rw [if_neg h2]
    exact ih (fun x hx => h x (by simp [hx]))

/-- New relative index of the selected site `k` when its root bond points in direction `d`. -/
def relK (L : Nat) (V : LV) (k : Nat) (r : Int) (d : Dir) : Idx :=
  if 0 ≤ upd V.sg k r (nbr L k d) then (V.rel (nbr L k d)).add (cdiff L (nbr L k d) k) else V.rel k

theorem assignLoop_mk {S : Perc α} (hS : S.lat = mkLat L V) (hP : S.pool = mkPool N P) {k : Nat} (hk : k < L * L)
    {r : Int} (r0 : 0 ≤ r) (r1 : r < N) (ub : List Nat) (hub : ∀ b ∈ ub, ∃ d, b = bondAt L k d) (hnd : (ub.map V.bg).Nodup)
    (d : Dir) (hd : bondAt L k d ∈ ub) (hdr : V.bg (bondAt L k d) = r) :
    Perc.assignLoop k r ub S = .ok { S with
      lat := mkLat L { V with sg := upd V.sg k r, rel := upd V.rel k (relK L V k r d) }
      pool := mkPool N { P with cs := updI P.cs r (P.cs r ++ [k]) } } := by
  induction ub with
  | nil => simp at hd
  | cons b bs ih =>
    obtain ⟨db, hdb⟩ := hub b (by simp)
    have hbl : b < 2 * (L * L) := by rw [hdb]; exact bondAt_lt hk db
    have hskip : ∀ x ∈ bs, V.bg b = r → x < 2 * (L * L) ∧ V.bg x ≠ r := by
      intro x hx hbr
      obtain ⟨dx, hdx⟩ := hub x (by simp [hx])
      refine ⟨by rw [hdx]; exact bondAt_lt hk dx, fun h => ?_⟩
      rw [List.map_cons, List.nodup_cons] at hnd
      exact hnd.1 (by rw [hbr, ← h]; exact List.mem_map_of_mem hx)
    simp only [Perc.assignLoop, hS, getBondGid_mk hbl]
    show (if V.bg b = r then _ else _) = _
    by_cases hbr : V.bg b = r
    · rw [if_pos hbr]
      have hbd : b = bondAt L k d := by
        rcases List.mem_cons.1 hd with h | h
        · exact h.symm
        · exact absurd hdr (hskip _ h hbr).2
      have hnl := nbr_lt hk d
      rw [setSiteGid_mk hk, hP, addSite_mk r0 r1]
      simp only [Perc.getNeighborSite]
      show ((mkLat L { V with sg := upd V.sg k r }).otherEnd k b >>= _) = _
      rw [hbd, otherEnd_mk hk d]
      show ((mkLat L { V with sg := upd V.sg k r }).getSiteGid (nbr L k d) >>= _) = _
      rw [getSiteGid_mk hnl]
      show (if upd V.sg k r (nbr L k d) ≥ 0 then _ else _) = _
      by_cases hg : 0 ≤ upd V.sg k r (nbr L k d)
      · rw [if_pos hg]
        show (getRelativeIndex (mkLat L { V with sg := upd V.sg k r }) (nbr L k d) k >>= _) = _
        rw [getRelativeIndex_mk hnl hk]
        show ((mkLat L { V with sg := upd V.sg k r }).setRelativeIndex k _ >>= _) = _
        rw [setRelativeIndex_mk hk]
        have hrk : relK L V k r d = (V.rel (nbr L k d)).add (cdiff L (nbr L k d) k) := by simp [relK, hg]
        rw [hrk]
        exact assignLoop_skip (V := { V with sg := upd V.sg k r, rel := _ }) rfl k r bs (fun x hx => hskip x hx hbr)
      · rw [if_neg hg]
        have hrk : relK L V k r d = V.rel k := by simp [relK, hg]
        rw [hrk]
        have hu : upd V.rel k (V.rel k) = V.rel := by
          funext j; by_cases hj : j = k <;> simp [upd, hj]
        rw [hu]
        exact assignLoop_skip (V := { V with sg := upd V.sg k r }) rfl k r bs (fun x hx => hskip x hx hbr)
    · rw [if_neg hbr]
      refine ih (fun x hx => hub x (by simp [hx])) (List.nodup_cons.1 hnd).2 ?_
      rcases List.mem_cons.1 hd with h | h
      · exact absurd (h ▸ hdr) hbr
      · exact h

/-! ### The other clusters are merged -/

/-- The state after a merge loop over `l`. -/
structure MergeEffect (L : Nat) (k : Nat) (r : Int) (l : List Nat) (V V' : LV) (P P' : PV) : Prop where
  bg : ∀ x < 2 * (L * L), V'.bg x = if V.bg x ∈ l.map V.bg then r else V.bg x
  sg : ∀ x < L * L, V'.sg x = if V.sg x ∈ l.map V.bg then r else V.sg x
  n1 : V'.n1 = V.n1
  n2 : V'.n2 = V.n2
  relMoved : ∀ d, bondAt L k d ∈ l → V.bg (bondAt L k d) ≠ r → ∀ x < L * L, V.sg x = V.bg (bondAt L k d) →
    V'.rel x = (V.rel x).add (((V.rel k).add (cdiff L k (nbr L k d))).sub (V.rel (nbr L k d)))
  relKept : ∀ x < L * L, V.sg x ∉ l.map V.bg ∨ V.sg x = r → V'.rel x = V.rel x
  cbRoot : P'.cb r = P.cb r ++ (l.filter (fun b => V.bg b ≠ r)).flatMap fun b => P.cb (V.bg b)
  csRoot : P'.cs r = P.cs r ++ (l.filter (fun b => V.bg b ≠ r)).flatMap fun b => P.cs (V.bg b)
  cbKept : ∀ g, g ≠ r → P'.cb g = P.cb g
  csKept : ∀ g, g ≠ r → P'.cs g = P.cs g
  cg : P'.cg = P.cg
  ci : P'.ci = P.ci
  next : P'.next = P.next

/-- What the merge loop needs to know about a cluster. -/
structure ClusterOk (L N : Nat) (V : LV) (P : PV) (g : Int) : Prop where
  nonneg : 0 ≤ g
  lt : g < N
  memb : ∀ x, x ∈ P.cb g ↔ x < 2 * (L * L) ∧ V.bg x = g
  mems : ∀ x, x ∈ P.cs g ↔ x < L * L ∧ V.sg x = g
  nds : (P.cs g).Nodup

theorem relabel_mk {S : Perc α} (hS : S.lat = mkLat L V) (hP : S.pool = mkPool N P) {k : Nat} (hk : k < L * L) (d : Dir)
    (hok : ClusterOk L N V P (V.bg (bondAt L k d))) (hsk : 0 ≤ V.sg k) :
    S.relabelRelativeIndices k (bondAt L k d) = .ok { S with
      lat := mkLat L { V with
       rel := fun j =>
        if j ∈ P.cs (V.bg (bondAt L k d)) then (V.rel j).add (((V.rel k).add (cdiff L k (nbr L k d))).sub (V.rel (nbr L k d)))
        else V.rel j } } := by
  have hnl := nbr_lt hk d
  have hbl := bondAt_lt hk d
  simp only [Perc.relabelRelativeIndices, hS, hP, getBond_mk hbl, Perc.getNeighborSite]
  show ((mkLat L V).otherEnd k (bondAt L k d) >>= _) = _
  rw [otherEnd_mk hk d]
  show ((mkPool N P).getSites (V.bg (bondAt L k d)) >>= _) = _
  rw [getSites_mk hok.nonneg hok.lt]
  show (if (P.cs (V.bg (bondAt L k d))).length = 0 then _ else _) = _
  split
  · next h0 =>
    have : P.cs (V.bg (bondAt L k d)) = [] := List.length_eq_zero_iff.1 h0
    rw [this]
    simp only [List.not_mem_nil, if_false]
    show Except.ok S = _
    rw [← hS, ← hP]
  · show ((mkLat L V).getSite (nbr L k d) >>= _) = _
    rw [getSite_mk hnl]
    show (getRelativeIndex (mkLat L V) k (nbr L k d) >>= _) = _
    rw [getRelativeIndex_mk hk hnl]
    show ((mkLat L V).getSiteGid k >>= _) = _
    rw [getSiteGid_mk hk]
    show (if V.sg k ≥ 0 then _ else _) = _
    rw [if_pos hsk, shiftSites_mk _ _ (fun i hi => ((hok.mems i).1 hi).1) hok.nds]
    rfl

theorem mergeLoop_mk {k : Nat} (hk : k < L * L) {r : Int} (r0 : 0 ≤ r) (r1 : r < N) (l : List Nat) :
    ∀ {S : Perc α} {V : LV} {P : PV}, S.lat = mkLat L V → S.pool = mkPool N P → P.cg r = r → V.sg k = r →
    (∀ b ∈ l, ∃ d, b = bondAt L k d) → (l.map V.bg).Nodup →
    (∀ b ∈ l, V.bg b ≠ r → ClusterOk L N V P (V.bg b)) →
    (∀ d, bondAt L k d ∈ l → V.sg (nbr L k d) = V.bg (bondAt L k d) ∨ V.sg (nbr L k d) < 0 ∨ V.sg (nbr L k d) = r) →
    ∃ V' P', Perc.mergeLoop k r l S = .ok { S with lat := mkLat L V', pool := mkPool N P' } ∧ MergeEffect L k r l V V' P P' := by
  induction l with
  | nil =>
    intro S V P hS hP _ _ _ _ _ _
    refine ⟨V, P, ?_, ?_⟩
    · show Except.ok S = _
      rw [← hS, ← hP]
    · constructor <;> simp
  | cons b bs ih =>
    intro S V P hS hP hcg hsk hub hnd hok hnn
    obtain ⟨db, hdb⟩ := hub b (by simp)
    have hbl : b < 2 * (L * L) := by rw [hdb]; exact bondAt_lt hk db
    have hub' : ∀ x ∈ bs, ∃ d, x = bondAt L k d := fun x hx => hub x (by simp [hx])
    have hxl : ∀ x ∈ bs, x < 2 * (L * L) := by
      intro x hx; obtain ⟨d, rfl⟩ := hub' x hx; exact bondAt_lt hk d
    obtain ⟨hnb, hnd'⟩ := List.nodup_cons.1 (List.map_cons ▸ hnd : (V.bg b :: bs.map V.bg).Nodup)
    by_cases hbr : V.bg b = r
    · obtain ⟨V', P', e, M⟩ := ih hS hP hcg hsk hub' hnd' (fun x hx => hok x (by simp [hx]))
        (fun d hd => hnn d (by simp [hd]))
      refine ⟨V', P', ?_, ?_⟩
      · simp only [Perc.mergeLoop, hS, getBondGid_mk hbl]
        show (if V.bg b = r then _ else _) = _
        rw [if_pos hbr]; exact e
      · refine ⟨?_, ?_, M.n1, M.n2, ?_, ?_, ?_, ?_, M.cbKept, M.csKept, M.cg, M.ci, M.next⟩
        · intro x hx
          rw [M.bg x hx]
          by_cases h1 : V.bg x ∈ bs.map V.bg
          · rw [if_pos h1, if_pos (by rw [List.map_cons]; exact List.mem_cons_of_mem _ h1)]
          · rw [if_neg h1]
            by_cases h2 : V.bg x = V.bg b
            · rw [if_pos (by rw [List.map_cons, h2]; exact List.mem_cons_self), h2, hbr]
            · rw [if_neg]
              rw [List.map_cons, List.mem_cons]; exact fun h => h.elim h2 h1
        · intro x hx
          rw [M.sg x hx]
          by_cases h1 : V.sg x ∈ bs.map V.bg
          · rw [if_pos h1, if_pos (by rw [List.map_cons]; exact List.mem_cons_of_mem _ h1)]
          · rw [if_neg h1]
            by_cases h2 : V.sg x = V.bg b
            · rw [if_pos (by rw [List.map_cons, h2]; exact List.mem_cons_self), h2, hbr]
            · rw [if_neg]
              rw [List.map_cons, List.mem_cons]; exact fun h => h.elim h2 h1
        · intro d hd hne
          rcases List.mem_cons.1 hd with h | h
          · exact absurd (h ▸ hbr) hne
          · exact M.relMoved d h hne
        · intro x hx h
          apply M.relKept x hx
          rcases h with h | h
          · left; intro h1; exact h (by rw [List.map_cons]; exact List.mem_cons_of_mem _ h1)
          · exact Or.inr h
        · rw [M.cbRoot, List.filter_cons_of_neg (by simp [hbr])]
        · rw [M.csRoot, List.filter_cons_of_neg (by simp [hbr])]
    · have hokb := hok b (by simp) hbr
      subst hdb
      -- the state after relabelling
      generalize hδ : ((V.rel k).add (cdiff L k (nbr L k db))).sub (V.rel (nbr L k db)) = δ
      have hrel := relabel_mk hS hP hk db hokb (by rw [hsk]; exact r0)
      rw [hδ] at hrel
      have hmerge := mergeClusterWith_mk (N := N) (L := L) (P := P)
        (V := { V with rel := fun j => if j ∈ P.cs (V.bg (bondAt L k db)) then (V.rel j).add δ else V.rel j })
        r0 r1 hokb.nonneg hokb.lt (fun i hi => ((hokb.mems i).1 hi).1) (fun i hi => ((hokb.memb i).1 hi).1)
      rw [hcg] at hmerge
      generalize hg : V.bg (bondAt L k db) = g at *
      generalize hV1 : ({ V with
          rel := fun j => if j ∈ P.cs g then (V.rel j).add δ else V.rel j
          bg := fun j => if j ∈ P.cb g then r else V.bg j
          sg := fun j => if j ∈ P.cs g then r else V.sg j } : LV) = V1
      generalize hP1 : ({ P with cs := updI P.cs r (P.cs r ++ P.cs g), cb := updI P.cb r (P.cb r ++ P.cb g) } : PV) = P1
      have hstep : Perc.mergeLoop k r (bondAt L k db :: bs) S =
          Perc.mergeLoop k r bs { S with lat := mkLat L V1, pool := mkPool N P1 } := by
        simp only [Perc.mergeLoop, hS, getBondGid_mk hbl]
        show (if V.bg (bondAt L k db) = r then _ else _) = _
        rw [hg, if_neg hbr, hrel]
        show (S.pool.mergeClusterWith r g (mkLat L _) >>= _) = _
        rw [hP, hmerge, ← hV1, ← hP1]
        rfl
      have hbg1 : ∀ x < 2 * (L * L), V1.bg x = if V.bg x = g then r else V.bg x := by
        intro x hx
        rw [← hV1]
        show (if x ∈ P.cb g then r else V.bg x) = _
        by_cases h : V.bg x = g
        · rw [if_pos ((hokb.memb x).2 ⟨hx, h⟩), if_pos h]
        · rw [if_neg (fun h' => h ((hokb.memb x).1 h').2), if_neg h]
      have hsg1 : ∀ x < L * L, V1.sg x = if V.sg x = g then r else V.sg x := by
        intro x hx
        rw [← hV1]
        show (if x ∈ P.cs g then r else V.sg x) = _
        by_cases h : V.sg x = g
        · rw [if_pos ((hokb.mems x).2 ⟨hx, h⟩), if_pos h]
        · rw [if_neg (fun h' => h ((hokb.mems x).1 h').2), if_neg h]
      have hrel1 : ∀ x < L * L, V1.rel x = if V.sg x = g then (V.rel x).add δ else V.rel x := by
        intro x hx
        rw [← hV1]
        show (if x ∈ P.cs g then _ else _) = _
        by_cases h : V.sg x = g
        · rw [if_pos ((hokb.mems x).2 ⟨hx, h⟩), if_pos h]
        · rw [if_neg (fun h' => h ((hokb.mems x).1 h').2), if_neg h]
      have hbgbs : ∀ x ∈ bs, V1.bg x = V.bg x := by
        intro x hx
        rw [hbg1 x (hxl x hx), if_neg]
        intro h; exact hnb (h ▸ List.mem_map_of_mem hx)
      have hmap : bs.map V1.bg = bs.map V.bg := List.map_congr_left hbgbs
      have hcb1 : ∀ j, j ≠ r → P1.cb j = P.cb j := by
        intro j hj; rw [← hP1]; show updI _ _ _ j = _; simp [updI, hj]
      have hcs1 : ∀ j, j ≠ r → P1.cs j = P.cs j := by
        intro j hj; rw [← hP1]; show updI _ _ _ j = _; simp [updI, hj]
      have hgr : g ≠ r := hbr
      have hnng : ∀ d, bondAt L k d ∈ bs → V.sg (nbr L k d) ≠ g := by
        intro d hd h
        have h0 := hokb.nonneg
        rcases hnn d (by simp [hd]) with h1 | h1 | h1
        · exact hnb (by rw [← h, h1]; exact List.mem_map_of_mem hd)
        · omega
        · exact hgr (h ▸ h1)
      obtain ⟨V', P', e, M⟩ := ih (S := { S with lat := mkLat L V1, pool := mkPool N P1 }) (V := V1) (P := P1) rfl rfl
        (by rw [← hP1]; exact hcg)
        (by rw [hsg1 k hk, hsk]; simp [hgr.symm])
        hub' (by rw [hmap]; exact hnd')
        (by
          intro x hx hne
          rw [hbgbs x hx] at hne ⊢
          have hO := hok x (by simp [hx]) hne
          have hxg : V.bg x ≠ g := fun h => hnb (h ▸ List.mem_map_of_mem hx)
          refine ⟨hO.nonneg, hO.lt, ?_, ?_, by rw [hcs1 _ hne]; exact hO.nds⟩
          · intro y
            rw [hcb1 _ hne, hO.memb y]
            constructor
            · rintro ⟨h1, h2⟩
              exact ⟨h1, by rw [hbg1 y h1, h2, if_neg hxg]⟩
            · rintro ⟨h1, h2⟩
              refine ⟨h1, ?_⟩
              rw [hbg1 y h1] at h2
              split at h2
              · exact absurd h2.symm hne
              · exact h2
          · intro y
            rw [hcs1 _ hne, hO.mems y]
            constructor
            · rintro ⟨h1, h2⟩
              exact ⟨h1, by rw [hsg1 y h1, h2, if_neg hxg]⟩
            · rintro ⟨h1, h2⟩
              refine ⟨h1, ?_⟩
              rw [hsg1 y h1] at h2
              split at h2
              · exact absurd h2.symm hne
              · exact h2)
        (by
          intro d hd
          rw [hsg1 _ (nbr_lt hk d), if_neg (hnng d hd), hbgbs _ hd]
          exact hnn d (by simp [hd]))
      have hrk1 : V1.rel k = V.rel k := by rw [hrel1 k hk, hsk, if_neg hgr.symm]
      refine ⟨V', P', ?_, ?_⟩
      · exact hstep.trans e
      · refine ⟨?_, ?_, ?_, ?_, ?_, ?_, ?_, ?_, ?_, ?_, ?_, ?_, ?_⟩
        · intro x hx
          rw [M.bg x hx, hmap, hbg1 x hx, List.map_cons, hg]
          by_cases h1 : V.bg x = g
          · simp [h1]
          · simp [h1]
        · intro x hx
          rw [M.sg x hx, hmap, hsg1 x hx, List.map_cons, hg]
          by_cases h1 : V.sg x = g
          · simp [h1]
          · simp [h1]
        · rw [M.n1, ← hV1]
        · rw [M.n2, ← hV1]
        · intro d hd hne x hx hxg
          by_cases hdd : V.bg (bondAt L k d) = g
          · -- the cluster merged first
            have hxg' : V.sg x = g := by rw [hxg, hdd]
            have hbd : bondAt L k d = bondAt L k db := by
              rcases List.mem_cons.1 hd with h | h
              · exact h
              · exact absurd (hdd ▸ List.mem_map_of_mem h) hnb
            have hx1 : V1.sg x = r := by rw [hsg1 x hx, if_pos hxg']
            have hn : nbr L k d = nbr L k db := by
              have h1 := otherEnd_mk (L := L) (V := V) hk d
              have h2 := otherEnd_mk (L := L) (V := V) hk db
              rw [hbd, h2] at h1
              exact (Except.ok.inj h1).symm
            rw [M.relKept x hx (Or.inr hx1), hrel1 x hx, if_pos hxg', ← hδ, hn]
          · have hdb' : bondAt L k d ∈ bs := by
              rcases List.mem_cons.1 hd with h | h
              · exact absurd (h ▸ hg) hdd
              · exact h
            have h1 := M.relMoved d hdb' (by rw [hbgbs _ hdb']; exact hne) x hx
              (by rw [hbgbs _ hdb', hsg1 x hx, hxg, if_neg hdd])
            have hn := nbr_lt hk d
            rw [h1, hrk1, hrel1 x hx, hxg, if_neg hdd]
            rw [hrel1 _ hn, if_neg (hnng d hdb')]
        · intro x hx h
          rw [List.map_cons, hg] at h
          have hxg : V.sg x ≠ g := by
            rcases h with h | h
            · exact fun h' => h (by simp [h'])
            · rw [h]; exact hgr.symm
          rw [M.relKept x hx, hrel1 x hx, if_neg hxg]
          rw [hmap, hsg1 x hx, if_neg hxg]
          rcases h with h | h
          · left; exact fun h' => h (List.mem_cons_of_mem _ h')
          · exact Or.inr h
        · rw [M.cbRoot, List.filter_cons_of_pos (by simp [hg, hgr]), List.flatMap_cons, hg, ← List.append_assoc]
          congr 1
          · rw [← hP1]; simp [updI]
          · have : bs.filter (fun b => decide (V1.bg b ≠ r)) = bs.filter (fun b => decide (V.bg b ≠ r)) :=
              List.filter_congr fun x hx => by rw [hbgbs x hx]
            rw [this]
            apply List.flatMap_congr
            intro x hx
            rw [List.mem_filter] at hx
            rw [hbgbs x hx.1, hcb1 _ (by simpa using hx.2)]
        · rw [M.csRoot, List.filter_cons_of_pos (by simp [hg, hgr]), List.flatMap_cons, hg, ← List.append_assoc]
          congr 1
          · rw [← hP1]; simp [updI]
          · have : bs.filter (fun b => decide (V1.bg b ≠ r)) = bs.filter (fun b => decide (V.bg b ≠ r)) :=
              List.filter_congr fun x hx => by rw [hbgbs x hx]
            rw [this]
            apply List.flatMap_congr
            intro x hx
            rw [List.mem_filter] at hx
            rw [hbgbs x hx.1, hcs1 _ (by simpa using hx.2)]
        · intro j hj; rw [M.cbKept j hj, hcb1 j hj]
        · intro j hj; rw [M.csKept j hj, hcs1 j hj]
        · rw [M.cg, ← hP1]
        · rw [M.ci, ← hP1]
        · rw [M.next, ← hP1]

end SqPerc
