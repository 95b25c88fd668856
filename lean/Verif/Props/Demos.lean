import Verif.Model.Demos
import Verif.Props.Tests
import Verif.Props.Output
import Verif.Props.Entropy
import Verif.Props.Bounds
import Verif.Props.Dual
import Verif.Props.Ensemble
/-
C75: what the demonstration functions do and print, for every lattice length and all random numbers.
-/
namespace SqPerc

variable {α : Type} {env : Env α} {L : Nat} {S S' S1 S2 : Perc α} {v : Variant} {seq : List Nat}

theorem entropyV1Loop_total {A : Abs α} (M : Sim env L S A) (is : List Nat) (h : ∀ i ∈ is, i < 2 * (L * L)) (x : α) :
    ∃ y, S.entropyV1Loop env is x = .ok y := by
  induction is generalizing x with
  | nil => exact ⟨x, rfl⟩
  | cons i is ih =>
    simp only [Perc.entropyV1Loop]
    rw [M.bondCount (natCast_mem_gids (h i (by simp)))]
    show ∃ y, (if A.P.len ((i : Nat) : Int) = 0 then _ else _) = _
    split
    · exact ih (fun j hj => h j (by simp [hj])) x
    · exact ih (fun j hj => h j (by simp [hj])) _

theorem Reach.entropyV1_total (h : Reach env v L S) : ∃ y, S.entropyV1 env = .ok y := by
  obtain ⟨hL, A, M, hA⟩ := h.sim
  obtain ⟨y, hy⟩ := entropyV1Loop_total M (List.range (2 * (L * L))) (fun i hi => List.mem_range.1 hi) (env.ar.ofNat 0)
  exact ⟨env.ar.neg y, by rw [Perc.entropyV1, M.cc, hy]; rfl⟩

theorem Reach.orderWrapping_total (h : Reach env v L S) : ∃ y, S.orderWrapping env = .ok y := by
  obtain ⟨hL, A, M, hA⟩ := h.sim
  exact ⟨_, orderWrapping_ok M hA⟩

theorem Reach.viewLattice_total (h : Reach env v L S) (fmt : Int) : ∃ t, S.viewLattice fmt = .ok t := by
  by_cases h0 : fmt < 0
  · exact ⟨_, by rw [Perc.viewLattice, if_pos h0]⟩
  by_cases h3 : fmt = 3
  · obtain ⟨t, ht, _⟩ := C66_relative h
    exact ⟨t, h3 ▸ ht⟩
  by_cases h4 : fmt = 4
  · obtain ⟨t, ht, _⟩ := C66_gids h
    exact ⟨t, h4 ▸ ht⟩
  obtain ⟨t, ht, _⟩ := C66_view h fmt (by omega) h3 h4
  exact ⟨t, ht⟩

/-- Loop rule: a body that never breaks and keeps a relation `P` between what was printed in each round and the state.  The loop then goes
through as many rounds as the budget says and fills the lattice. -/
theorem demoLoop_rule {body : Body α} {P : List (List (Printed α)) → Perc α → Prop}
    (hP : ∀ outs S, P outs S → Live env v L S)
    (hb : ∀ outs S S1 d, P outs S → S.placeOneSite env v d = .ok (S1, true) → ∃ S2 out, body S1 = .ok (S2, out, false) ∧ P (outs ++ [out]) S2 ∧
      S2.budget L v = S1.budget L v)
    (hl : ∀ outs S S1 d, P outs S → S.placeOneSite env v d = .ok (S1, false) → P outs S1) (fuel : Nat) :
    ∀ {outs0 : List (List (Printed α))} {S : Perc α} (ds : Nat → Draw), P outs0 S → S.budget L v < fuel →
    ∃ (S' : Perc α) (outs : List (List (Printed α))), demoLoop env v body fuel ds S = .ok (S', outs.flatten) ∧ P (outs0 ++ outs) S' ∧
      (∀ s < L * L, S'.Occ s) ∧ (outs.length : Int) = S.budget L v := by
  induction fuel with
  | zero => intro outs0 S ds h hf; have := (hP outs0 S h).nonneg; simp at hf; omega
  | succ fuel ih =>
    intro outs0 S ds h hf
    obtain ⟨S1, b, p1, H1, ht, hfalse⟩ := (hP outs0 S h).place (ds 0)
    simp only [demoLoop]
    rw [p1]
    cases b with
    | false =>
      obtain ⟨A, M, hA⟩ := (hP outs0 S h).sim
      refine ⟨S1, [], rfl, by rw [List.append_nil]; exact hl outs0 S S1 _ h p1, ?_, ?_⟩
      · intro s hs
        rcases placeOneSite_occ M hA.inv p1 with h' | h'
        · exact absurd h'.2.1 (by simp)
        · exact (h'.2.1 s).2 ((hfalse rfl).2.2 s hs)
      · rw [(hfalse rfl).1]; rfl
    | true =>
      obtain ⟨c1, c2⟩ := ht rfl
      obtain ⟨S2, out, e2, P2, b2⟩ := hb outs0 S S1 _ h p1
      obtain ⟨S', outs, e', P', hfull, hlen⟩ := ih (fun j => ds (j + 1)) P2 (by push_cast at hf; omega)
      refine ⟨S', out :: outs, ?_, ?_, hfull, ?_⟩
      · show (body S1 >>= _) = _
        rw [e2]
        show (demoLoop env v body fuel (fun j => ds (j + 1)) S2 >>= _) = _
        rw [e']; rfl
      · rw [List.append_assoc] at P'; exact P'
      · rw [List.length_cons]; push_cast; omega

/-- One round in the plain classes. -/
theorem L0Ready.round {ids : List Nat} {i : Nat} (hv : v.plain = true) (hnd : ids.Nodup) (H : L0Ready L S ids i)
    (hS : ∃ A, Sim env L S A ∧ AReach env L A) {d : Draw} (hp : S.placeOneSite env v d = .ok (S1, true)) :
    ∃ k, ids[i]? = some k ∧ ids.take i ++ [k] = ids.take (i + 1) ∧ S1.selectionFlag = some .success ∧ S1.selected = some k ∧
      L0Ready L S1 ids (i + 1) := by
  obtain ⟨A, M, hA⟩ := hS
  by_cases hi : i < ids.length
  · have hk := List.getElem?_eq_getElem hi
    have hnot : ids[i] ∉ ids.take i := not_mem_take (n := ids.length) (by rw [List.take_length]; exact hnd) hi hk
    obtain ⟨S1', p1, hfl, hsel1, R⟩ := H.place M hA.inv hv hk hnot d
    rw [hp] at p1
    obtain ⟨rfl, _⟩ := Prod.mk.inj (Except.ok.inj p1)
    exact ⟨ids[i], hk, by rw [List.take_add_one, hk]; rfl, hfl, hsel1, R⟩
  · have hie : i = ids.length := Nat.le_antisymm H.le (by omega)
    subst hie
    obtain ⟨S1', p1, _⟩ := H.done (env := env) hv d
    rw [hp] at p1
    exact absurd (Prod.mk.inj (Except.ok.inj p1)).2 (by simp)

theorem L0Ready.last {ids : List Nat} {i : Nat} (hv : v.plain = true) (hnd : ids.Nodup) (H : L0Ready L S ids i)
    (hS : ∃ A, Sim env L S A ∧ AReach env L A) {d : Draw} (hp : S.placeOneSite env v d = .ok (S1, false)) :
    i = ids.length ∧ S1 = { S with selectionFlag := some .emptySiteList } ∧ L0Ready L S1 ids i := by
  obtain ⟨A, M, hA⟩ := hS
  by_cases hi : i < ids.length
  · have hk := List.getElem?_eq_getElem hi
    have hnot : ids[i] ∉ ids.take i := not_mem_take (n := ids.length) (by rw [List.take_length]; exact hnd) hi hk
    obtain ⟨S1', p1, _⟩ := H.place M hA.inv hv hk hnot d
    rw [hp] at p1
    exact absurd (Prod.mk.inj (Except.ok.inj p1)).2 (by simp)
  · have hie : i = ids.length := Nat.le_antisymm H.le (by omega)
    subst hie
    obtain ⟨S1', p1, e, R⟩ := H.done (env := env) hv d
    rw [hp] at p1
    obtain ⟨rfl, _⟩ := Prod.mk.inj (Except.ok.inj p1)
    exact ⟨rfl, e, R⟩

/-! ### The full lattice -/

/-- `viewCluster()` of a full lattice shows a single cluster with all sites and all bonds. -/
theorem full_view (h : Reach env v L S) (hf : ∀ s < L * L, S.Occ s) : ∃ (g : Nat) (ss bs : List Nat),
    numbers S.viewCluster = clusterNums g g ss bs ++ [1] ∧ ss.Perm (List.range (L * L)) ∧ bs.Perm (List.range (2 * (L * L))) := by
  obtain ⟨cs, cb, h1, h2⟩ := C67_view_cluster h
  obtain ⟨hL, A, M, hA⟩ := h.sim
  have C := hA.inv.core
  have hLL : 0 < L * L := Nat.mul_pos hL hL
  rw [M.occ_eq] at hf
  obtain ⟨g, hg, e⟩ := exists_nat_of_mem_gids (mem_gids.2 (C.bgr 0 (by omega)))
  have hall : ∀ b < 2 * (L * L), A.V.bg b = g := fun b hb => (C.full hf hb (by omega)).trans e
  have hcb : ∀ g' < 2 * (L * L), cb g' = A.P.cb g' := fun g' hg' => by
    have := (h1 g' hg').2; rw [M.getBonds (natCast_mem_gids hg')] at this; exact (Except.ok.inj this).symm
  have hcs : ∀ g' < 2 * (L * L), cs g' = A.P.cs g' := fun g' hg' => by
    have := (h1 g' hg').1; rw [M.getSites (natCast_mem_gids hg')] at this; exact (Except.ok.inj this).symm
  have hr := mem_gids.1 (natCast_mem_gids (L := L) hg)
  have hfil : ((List.range (2 * (L * L))).filter fun g => !(cb g).isEmpty) = [g] := by
    rw [show ((List.range (2 * (L * L))).filter fun g => !(cb g).isEmpty) = (List.range (2 * (L * L))).filter fun x => decide (x = g) from ?_]
    · rw [List.filter_eq, List.count_eq_one_of_mem List.nodup_range (List.mem_range.2 hg)]; rfl
    · refine List.filter_congr fun x hx => ?_
      have hx' := List.mem_range.1 hx
      have hxr := mem_gids.1 (natCast_mem_gids (L := L) hx')
      rw [hcb x hx', Bool.eq_iff_iff]
      simp only [Bool.not_eq_true', List.isEmpty_eq_false_iff, decide_eq_true_eq]
      constructor
      · intro hne
        obtain ⟨b, hb⟩ := List.exists_mem_of_ne_nil _ hne
        have := (C.memb _ hxr.1 hxr.2 b).1 hb
        rw [hall b this.1] at this
        omega
      · rintro rfl
        exact List.ne_nil_of_mem ((C.memb _ hr.1 hr.2 0).2 ⟨by omega, e⟩)
  refine ⟨g, cs g, cb g, by rw [h2, hfil]; simp, ?_, ?_⟩
  · rw [hcs g hg]
    refine (List.perm_ext_iff_of_nodup (C.nds _ hr.1 hr.2) List.nodup_range).2 fun s => ?_
    rw [C.mems _ hr.1 hr.2, List.mem_range]
    exact ⟨fun h => h.1, fun h => ⟨h, (C.inc s .right (hf s h)).symm.trans (hall _ (bondAt_lt h _))⟩⟩
  · rw [hcb g hg]
    refine (List.perm_ext_iff_of_nodup (C.ndb _ hr.1 hr.2) List.nodup_range).2 fun b => ?_
    rw [C.memb _ hr.1 hr.2, List.mem_range]
    exact ⟨fun h => h.1, fun h => ⟨h, hall b h⟩⟩

/-! ### percolation_sq_lattice.py -/

theorem Fresh.reach (F : Fresh env v L S) : Reach env v L S := F.defReach.reach

/-- C75: `test_site_percolation` prints eight texts and never raises: bonds, sites, clusters and lattice of the new object, then the full
lattice in three formats and its clusters, which are a single one with all sites and all bonds. -/
theorem C75_site_percolation (h0 : 0 < L) {fuel : Nat} (hf : L * L < fuel) (draws : Nat → Nat) (ds : Nat → Draw) :
    ∃ S S' t1 t2 t4 t5 t6 t7, Perc.new env L draws = .ok S ∧ Reach env .l0 L S' ∧ (∀ s < L * L, S'.Occ s) ∧
      demoSitePercolation env L fuel draws ds = .ok (S', [t1, t2, S.viewCluster, t4, t5, t6, t7, S'.viewCluster].map .text) ∧
      S.lat.printBonds = .ok t1 ∧ S.lat.printSites = .ok t2 ∧ S.viewLattice 1 = .ok t4 ∧
      S'.viewLattice 1 = .ok t5 ∧ S'.viewLattice 2 = .ok t6 ∧ S'.viewLattice 0 = .ok t7 ∧
      ∃ (g : Nat) (ss bs : List Nat), numbers S'.viewCluster = clusterNums g g ss bs ++ [1] ∧ ss.Perm (List.range (L * L)) ∧
        bs.Perm (List.range (2 * (L * L))) := by
  obtain ⟨S, e, F⟩ := fresh_exists env .l0 h0 draws
  obtain ⟨t1, e1, _⟩ := C66_print_bonds F.reach
  obtain ⟨t2, e2, _⟩ := C66_print_sites F.reach
  obtain ⟨t4, e4⟩ := F.reach.viewLattice_total 1
  obtain ⟨S', outs, e', ⟨D', ho⟩, hfull, hlen⟩ := demoLoop_rule (env := env) (v := .l0) (L := L) (body := Body.skip)
    (P := fun outs S => DefReach env .l0 L S ∧ ∀ o ∈ outs, o = [])
    (fun outs S h => h.1.live)
    (fun outs S S1 d h hp => ⟨S1, [], rfl, ⟨.step (.place d) rfl h.1 (by simp only [SqPerc.step]; rw [hp]; rfl),
      fun o ho => (List.mem_append.1 ho).elim (h.2 o) fun ho => List.mem_singleton.1 ho⟩, rfl⟩)
    (fun outs S S1 d h hp => ⟨.step (.place d) rfl h.1 (by simp only [SqPerc.step]; rw [hp]; rfl), h.2⟩)
    fuel (outs0 := []) ds ⟨F.defReach, by simp⟩ (by rw [F.live.2.1]; show ((L : Int) * L) < fuel; exact_mod_cast hf)
  obtain ⟨t5, e5⟩ := D'.reach.viewLattice_total 1
  obtain ⟨t6, e6⟩ := D'.reach.viewLattice_total 2
  obtain ⟨t7, e7⟩ := D'.reach.viewLattice_total 0
  have hout : outs.flatten = [] := List.flatten_eq_nil_iff.2 (by simpa using ho)
  rw [hout] at e'
  refine ⟨S, S', t1, t2, t4, t5, t6, t7, e, D'.reach, hfull, ?_, e1, e2, e4, e5, e6, e7, full_view D'.reach hfull⟩
  simp only [demoSitePercolation, e, e1, e2, e4, e', e5, e6, e7, bind, Except.bind]
  rfl

theorem DefReach.placeTo {d : Draw} {b : Bool} (D : DefReach env v L S) (hp : S.placeOneSite env v d = .ok (S1, b)) : DefReach env v L S1 :=
  .step (.place d) rfl D (by simp only [SqPerc.step]; rw [hp]; rfl)

theorem DefReach.detectTo {w : Bool} (D : DefReach env v L S) (hd : S.detectWrapping = .ok (S1, w)) : DefReach env v L S1 :=
  .step .detect rfl D (by simp only [SqPerc.step]; rw [hd]; rfl)

theorem DefReach.awOff {d : Draw} {b : Bool} (D : DefReach env v L S) (h : S.afterWrapping = false)
    (hp : S.placeOneSite env v d = .ok (S1, b)) : S1.afterWrapping = false := by
  obtain ⟨A, M, hA⟩ := D.live.sim
  rw [M.aw] at h
  obtain ⟨_, V1, _, ⟨_, _, k, r, V', P', _, _, _, _, _, M1⟩ | ⟨_, _, M1⟩ | ⟨_, _, M1⟩⟩ := placeOneSite_sim M hA.inv hp
  · rw [M1.aw]; exact h
  · rw [M1.aw]; exact h
  · rw [M1.aw]; exact h

theorem mapM_view (h : Reach env v L S) (fmts : List Int) : ∃ ts, fmts.mapM S.viewLattice = .ok ts := by
  induction fmts with
  | nil => exact ⟨[], rfl⟩
  | cons f fmts ih =>
    obtain ⟨t, ht⟩ := h.viewLattice_total f
    obtain ⟨ts, hts⟩ := ih
    exact ⟨t :: ts, by rw [List.mapM_cons, ht, hts]; rfl⟩

theorem placeAndViews_ok {ids : List Nat} (hnd : ids.Nodup) (fmtss : List (List Int)) : ∀ {S : Perc α} {i : Nat} (ds : Nat → Draw),
    DefReach env .l0 L S → L0Ready L S ids i → ∃ (S' : Perc α) (outs : List (List (Printed α))),
      placeAndViews env .l0 ds fmtss S = .ok (S', outs.flatten) ∧ outs.length = fmtss.length ∧ Reach env .l0 L S' ∧
      (∀ s, S'.Occ s ↔ s ∈ ids.take (i + fmtss.length)) ∧
      ∀ j out, outs[j]? = some out → ∃ T fmts ts, Reach env .l0 L T ∧ (∀ s, T.Occ s ↔ s ∈ ids.take (i + j + 1)) ∧ fmtss[j]? = some fmts ∧
        fmts.mapM T.viewLattice = .ok ts ∧ out = ts.map .text := by
  induction fmtss with
  | nil =>
    intro S i ds D H
    exact ⟨S, [], rfl, rfl, D.reach, H.occ, fun j out h => by simp at h⟩
  | cons fmts fmtss ih =>
    intro S i ds D H
    obtain ⟨S1, b, p1, _⟩ := D.live.place (ds 0)
    have D1 := D.placeTo p1
    obtain ⟨ts, hts⟩ := mapM_view D1.reach fmts
    have key : ∃ i1, L0Ready L S1 ids i1 ∧ (∀ n, ids.take (i1 + n) = ids.take (i + n + 1)) := by
      cases b with
      | true =>
        obtain ⟨_, _, _, _, _, R⟩ := H.round rfl hnd D.live.sim p1
        exact ⟨i + 1, R, fun n => by rw [show i + 1 + n = i + n + 1 by omega]⟩
      | false =>
        obtain ⟨hi, _, R⟩ := H.last rfl hnd D.live.sim p1
        exact ⟨i, R, fun n => by rw [List.take_of_length_le (by omega), List.take_of_length_le (by omega)]⟩
    obtain ⟨i1, R, et⟩ := key
    obtain ⟨S', outs, e', hl, D', hocc, hq⟩ := ih (fun j => ds (j + 1)) D1 R
    refine ⟨S', ts.map .text :: outs, ?_, by rw [List.length_cons, hl, List.length_cons], D', ?_, ?_⟩
    · simp only [placeAndViews, placeAndView, p1, hts, e', bind, Except.bind, pure, Except.pure]
      rfl
    · intro s; rw [hocc, et, List.length_cons, Nat.add_assoc]
    · intro j o hj
      cases j with
      | zero =>
        rw [List.getElem?_cons_zero] at hj; cases hj
        exact ⟨S1, fmts, ts, D1.reach, fun s => by rw [R.occ, ← Nat.add_zero i1, et], rfl, hts, rfl⟩
      | succ j =>
        rw [List.getElem?_cons_succ] at hj
        obtain ⟨T, f, ts', h1, h2, h3, h4⟩ := hq j o hj
        exact ⟨T, f, ts', h1, fun s => by rw [h2, Nat.add_assoc i1, et, show i + (j + 1) + 1 = i + (j + 1) + 1 from rfl], h3, h4⟩

/-- C75: `test_relative_index` never raises: it places fourteen sites (or all, if there are fewer), those at the front of the shuffled
list, and shows group ids and relative indices after each of them; after the last three also the group ids alone. -/
theorem C75_relative_index (h0 : 0 < L) (draws : Nat → Nat) (ds : Nat → Draw) : ∃ (S S' : Perc α) (outs : List (List (Printed α))),
    Perc.new env L draws = .ok S ∧ demoRelativeIndex env L draws ds = .ok (S', outs.flatten) ∧ outs.length = 14 ∧
    S.siteIds.Perm (List.range (L * L)) ∧ S'.occupiedCount = min 14 (L * L) ∧
    ∀ j out, outs[j]? = some out → ∃ T t3, Reach env .l0 L T ∧ (∀ s, T.Occ s ↔ s ∈ S.siteIds.take (j + 1)) ∧ T.viewLattice 3 = .ok t3 ∧
      (j < 11 → out = [.text t3]) ∧ (11 ≤ j → ∃ t4, T.viewLattice 4 = .ok t4 ∧ out = [.text t3, .text t4]) := by
  obtain ⟨S, e, F⟩ := fresh_exists env .l0 h0 draws
  obtain ⟨hperm, R⟩ := F.perm rfl
  have hnd : S.siteIds.Nodup := hperm.nodup_iff.2 List.nodup_range
  obtain ⟨S', outs, e', hl, R', hocc, hq⟩ := placeAndViews_ok (env := env) hnd relativeIndexFormats ds F.defReach R
  refine ⟨S, S', outs, e, by simp only [demoRelativeIndex, e, bind, Except.bind, e'], hl, hperm, ?_, ?_⟩
  · rw [C11_counter R']
    have h14 : relativeIndexFormats.length = 14 := rfl
    have ho : S'.Occ = (· ∈ S.siteIds.take 14) := by
      funext s; rw [hocc, h14, Nat.zero_add]
    rw [ho]
    have hsub : (S.siteIds.take 14).Nodup := hnd.sublist (List.take_sublist _ _)
    have hc : occCount L (· ∈ S.siteIds.take 14) = (S.siteIds.take 14).length := by
      classical
      unfold occCount
      rw [← List.toFinset_card_of_nodup hsub]
      congr 1
      ext s
      simp only [Finset.mem_filter, Finset.mem_range, List.mem_toFinset]
      exact ⟨fun h => h.2, fun h => ⟨R.lt s (List.mem_of_mem_take h), h⟩⟩
    rw [hc, List.length_take, hperm.length_eq, List.length_range]
  · intro j out hj
    have hj14 : j < 14 := by
      have := (List.getElem?_eq_some_iff.1 hj).1
      rw [hl] at this; exact this
    obtain ⟨T, fmts, ts, h1, h2, h3, h4, h5⟩ := hq j out hj
    rw [Nat.zero_add] at h2
    obtain ⟨t3, e3⟩ := h1.viewLattice_total 3
    obtain ⟨t4, e4⟩ := h1.viewLattice_total 4
    refine ⟨T, t3, h1, h2, e3, fun h => ?_, fun h => ⟨t4, e4, ?_⟩⟩
    · have : fmts = [3] := by
        have : ∀ j < 11, relativeIndexFormats[j]? = some [3] := by decide
        rw [this j h] at h3; exact (Option.some.inj h3).symm
      subst this
      rw [List.mapM_cons, e3] at h4
      rw [h5, ← Except.ok.inj h4]; rfl
    · have : fmts = [3, 4] := by
        have : ∀ j < 14, 11 ≤ j → relativeIndexFormats[j]? = some [3, 4] := by decide
        rw [this j hj14 h] at h3; exact (Option.some.inj h3).symm
      subst this
      rw [List.mapM_cons, e3, List.mapM_cons, e4] at h4
      rw [h5, ← Except.ok.inj h4]; rfl

/-- What is printed by one round of the base `test_detect_wrapping`, after the placement of the sites of `q`. -/
def BaseLine (env : Env α) (L : Nat) (q : List Nat) (out : List (Printed α)) : Prop :=
  ∃ (T : Perc α) (h1 : α), Reach env .l0 L T ∧ (∀ s, T.Occ s ↔ s ∈ q) ∧ T.entropyV1 env = .ok h1 ∧
    out = [.values ["p= ", " entropy_v1 ", " entropy_v2 ", " order "]
      [env.ar.div (env.ar.ofNat q.length) (env.ar.ofNat (L * L)), h1, T.entropy, env.ar.ofNat 0]]

theorem L0Ready.probEq {ids : List Nat} {i : Nat} (hnd : ids.Nodup) (H : L0Ready L S ids i) (R : Reach env v L S) :
    S.occupationProb env = env.ar.div (env.ar.ofNat (ids.take i).length) (env.ar.ofNat (L * L)) := by
  rw [C11_occupation_prob R]
  have hc : occCount L S.Occ = (ids.take i).length := by
    classical
    unfold occCount
    rw [← List.toFinset_card_of_nodup (hnd.sublist (List.take_sublist _ _))]
    congr 1
    ext s
    simp only [Finset.mem_filter, Finset.mem_range, List.mem_toFinset, H.occ]
    exact ⟨fun h => h.2, fun h => ⟨H.lt s (List.mem_of_mem_take h), h⟩⟩
  rw [hc]

theorem getElem?_snoc {β : Type} {l : List β} {x y : β} {j : Nat} (h : (l ++ [x])[j]? = some y) : l[j]? = some y ∨ (j = l.length ∧ y = x) := by
  rw [List.getElem?_append] at h
  split at h
  · exact .inl h
  · next hj =>
    refine .inr ?_
    cases hk : j - l.length with
    | zero => rw [hk] at h; cases h; exact ⟨by omega, rfl⟩
    | succ m => rw [hk] at h; simp at h

/-- C75: the base `test_detect_wrapping` prints one line per site: the line after the `n`-th placement shows `n/L²`, the two entropies of the
configuration, and the wrapping order parameter 0, because the function never calls `detect_wrapping`. -/
theorem C75_detect_base (h0 : 0 < L) {fuel : Nat} (hf : L * L < fuel) (draws : Nat → Nat) (ds : Nat → Draw) :
    ∃ (S S' : Perc α) (outs : List (List (Printed α))), Perc.new env L draws = .ok S ∧ demoDetectBase env L fuel draws ds = .ok (S', outs.flatten) ∧
    S.siteIds.Perm (List.range (L * L)) ∧ outs.length = L * L ∧ (∀ s < L * L, S'.Occ s) ∧ S'.getPc env = env.ar.ofNat 0 ∧
    ∀ j out, outs[j]? = some out → BaseLine env L (S.siteIds.take (j + 1)) out := by
  obtain ⟨S, e, F⟩ := fresh_exists env .l0 h0 draws
  obtain ⟨hperm, R⟩ := F.perm rfl
  have hnd : S.siteIds.Nodup := hperm.nodup_iff.2 List.nodup_range
  have haw : S.afterWrapping = false := by
    cases h : S.afterWrapping with
    | false => rfl
    | true =>
      obtain ⟨_, A, M, hA, I⟩ := F.trace.sim
      obtain ⟨pre, k, post, h1, _⟩ := I.on (by rw [← M.aw]; exact h)
      simp at h1
  obtain ⟨S', outs, e', ⟨D', R', haw', hq⟩, hfull, hlen⟩ := demoLoop_rule (env := env) (v := .l0) (L := L) (body := Body.baseLine env)
    (P := fun outs T => DefReach env .l0 L T ∧ L0Ready L T S.siteIds outs.length ∧ T.afterWrapping = false ∧
      ∀ j out, outs[j]? = some out → BaseLine env L (S.siteIds.take (j + 1)) out)
    (fun outs T h => h.1.live)
    (fun outs T T1 d h hp => by
      obtain ⟨D, H, ha, hq⟩ := h
      have D1 := D.placeTo hp
      obtain ⟨k, _, _, _, _, H1⟩ := H.round rfl hnd D.live.sim hp
      have ha1 := D.awOff ha hp
      obtain ⟨h1, e1⟩ := D1.reach.entropyV1_total
      have ew : T1.orderWrapping env = .ok (env.ar.ofNat 0) := by rw [Perc.orderWrapping, ha1]; rfl
      refine ⟨T1, _, by simp only [Body.baseLine, e1, ew, bind, Except.bind]; rfl, ⟨D1, by rw [List.length_append]; exact H1, ha1, ?_⟩, rfl⟩
      intro j o hj
      rcases getElem?_snoc hj with hj | ⟨rfl, rfl⟩
      · exact hq j o hj
      · exact ⟨T1, h1, D1.reach, H1.occ, e1, by rw [H1.probEq hnd D1.reach]⟩)
    (fun outs T T1 d h hp => by
      obtain ⟨D, H, ha, hq⟩ := h
      exact ⟨D.placeTo hp, (H.last rfl hnd D.live.sim hp).2.2, D.awOff ha hp, hq⟩)
    fuel (outs0 := []) ds ⟨F.defReach, R, haw, fun j out h => by simp at h⟩ (by rw [F.live.2.1]; show ((L : Int) * L) < fuel; exact_mod_cast hf)
  refine ⟨S, S', outs, e, by simp only [demoDetectBase, e, bind, Except.bind, e'], hperm, ?_, hfull, by rw [Perc.getPc, haw']; rfl, hq⟩
  rw [F.live.2.1] at hlen
  have hlen' : (outs.length : Int) = L * L := hlen
  exact_mod_cast hlen'

/-- C75: with exact arithmetic the two entropies in the `n`-th line are the Shannon entropy of the first `n` sites. -/
theorem C75_detect_base_entropy {so : SetOrder} {q : List Nat} {out : List (Printed ℝ)} (h : BaseLine (realEnv so) L q out) :
    out = [.values ["p= ", " entropy_v1 ", " entropy_v2 ", " order "] [(q.length : ℝ) / ((L * L : Nat) : ℝ), shannon L (· ∈ q), shannon L (· ∈ q), 0]] := by
  obtain ⟨T, h1, R, ho, e1, rfl⟩ := h
  have e2 := C14_entropies_agree R
  rw [e1] at e2
  have e3 := C15_entropy_shannon R
  have : T.Occ = (· ∈ q) := funext fun s => propext (ho s)
  rw [this] at e3
  rw [Except.ok.inj e2, e3]
  simp [realEnv, realArith]

/-! ### percolation_sq_lattice_L0.py -/

/-- Is this the message `Wrapping detected`? -/
def Printed.isWrap : Printed α → Bool
  | .text t => decide (t = wrapText)
  | .values _ _ => false

/-- What is printed by one round of `test_relative_index` (L0 module) after the placement of the sites of `q`: the table of the state, and
the message exactly if `q` wraps. -/
def ViewLine (env : Env α) (L : Nat) (q : List Nat) (out : List (Printed α)) : Prop :=
  ∃ (T : Perc α) (t : Text), Reach env .l0 L T ∧ (∀ s, T.Occ s ↔ s ∈ q) ∧ T.viewLattice 3 = .ok t ∧
    (HasWrapped L q → out = [.text t, .text wrapText]) ∧ (¬ HasWrapped L q → out = [.text t])

theorem view_ne_wrapText (h : Reach env v L S) {t : Text} (ht : S.viewLattice 3 = .ok t) : t ≠ wrapText := by
  rintro rfl
  obtain ⟨t', e, hl, _⟩ := C66_relative h
  rw [ht] at e
  rw [← Except.ok.inj e] at hl
  have : (lines wrapText).length = 2 := by decide
  omega

theorem ViewLine.messages {q : List Nat} {out : List (Printed α)} (h : ViewLine env L q out) :
    (HasWrapped L q → (out.filter Printed.isWrap).length = 1) ∧ (¬ HasWrapped L q → (out.filter Printed.isWrap).length = 0) := by
  obtain ⟨T, t, hT, _, ht, h1, h2⟩ := h
  have hn := view_ne_wrapText hT ht
  exact ⟨fun h => by rw [h1 h]; simp [List.filter, Printed.isWrap, hn], fun h => by rw [h2 h]; simp [List.filter, Printed.isWrap, hn]⟩

/-- The loop of `test_relative_index` and `test_reset_relative_index` from any fresh object. -/
theorem viewDetect_loop (F : Fresh env .l0 L S) {fuel : Nat} (hf : L * L < fuel) (ds : Nat → Draw) :
    ∃ (S' : Perc α) (outs : List (List (Printed α))), demoLoop env .l0 Body.viewDetect fuel ds S = .ok (S', outs.flatten) ∧
    outs.length = L * L ∧ Trace env .l0 L S' S.siteIds ∧ DefReach env .l0 L S' ∧ S'.siteIds = S.siteIds ∧
    ∀ j out, outs[j]? = some out → ViewLine env L (S.siteIds.take (j + 1)) out := by
  obtain ⟨hperm, R⟩ := F.perm rfl
  have hnd : S.siteIds.Nodup := hperm.nodup_iff.2 List.nodup_range
  have hlen0 : S.siteIds.length = L * L := by rw [hperm.length_eq, List.length_range]
  obtain ⟨S', outs, e', ⟨D', R', T', hq⟩, hfull, hlen⟩ := demoLoop_rule (env := env) (v := .l0) (L := L) (body := Body.viewDetect)
    (P := fun outs T => DefReach env .l0 L T ∧ L0Ready L T S.siteIds outs.length ∧ Trace env .l0 L T (S.siteIds.take outs.length) ∧
      ∀ j out, outs[j]? = some out → ViewLine env L (S.siteIds.take (j + 1)) out)
    (fun outs T h => h.1.live)
    (fun outs T T1 d h hp => by
      obtain ⟨D, H, Tr, hq⟩ := h
      have D1 := D.placeTo hp
      obtain ⟨A, M, hA⟩ := D1.live.sim
      obtain ⟨k, _, et, hfl, hsel, H1⟩ := H.round rfl hnd D.live.sim hp
      obtain ⟨T2, w, hd⟩ := detectWrapping_ok M hA.inv (by rw [hsel]; simp)
      have Tr2 := Tr.placed hp hfl hsel hd
      rw [et] at Tr2
      obtain ⟨haux, _, _, A2, _, M2, haw, _⟩ := detectWrapping_steps M hA.inv hd
      obtain ⟨K, hocc, _⟩ := detectWrapping_keep M hA.inv hd
      have hlat : T2.lat = T1.lat := by
        rcases detectWrapping_sim M hA.inv hd with ⟨_, rfl, _⟩ | ⟨_, k, _, ⟨_, rfl, _⟩ | ⟨_, _, _, rfl⟩⟩ <;> rfl
      obtain ⟨t, ht⟩ := D1.reach.viewLattice_total 3
      have ht2 : T2.viewLattice 3 = .ok t := by rw [← ht, Perc.viewLattice, Perc.viewLattice, hlat]
      have hw : w = true ↔ HasWrapped L (S.siteIds.take (outs.length + 1)) := by rw [← haw, ← M2.aw, Tr2.aw_iff]
      refine ⟨T2, .text t :: if w then [.text wrapText] else [], by simp only [Body.viewDetect, ht, hd, bind, Except.bind]; rfl,
        ⟨D1.detectTo hd, ?_, by rw [List.length_append]; exact Tr2, ?_⟩, (D1.live.detect hd).2⟩
      · rw [List.length_append]
        exact H1.congr K.siteIds haux.maxIter K.currentIdx hocc
      · intro j o hj
        rcases getElem?_snoc hj with hj | ⟨rfl, rfl⟩
        · exact hq j o hj
        · exact ⟨T2, t, (D1.detectTo hd).reach, Tr2.reports.occ, ht2, fun h => by rw [hw.2 h]; rfl,
            fun h => by rw [show w = false by cases w with | false => rfl | true => exact absurd (hw.1 rfl) h]; rfl⟩)
    (fun outs T T1 d h hp => by
      obtain ⟨D, H, Tr, hq⟩ := h
      obtain ⟨hi, e1, H1⟩ := H.last rfl hnd D.live.sim hp
      exact ⟨D.placeTo hp, H1, Tr.skipped hp (by rw [e1]; simp), hq⟩)
    fuel (outs0 := []) ds ⟨F.defReach, R, F.trace, fun j out h => by simp at h⟩ (by rw [F.live.2.1]; show ((L : Int) * L) < fuel; exact_mod_cast hf)
  rw [F.live.2.1] at hlen
  have hl : outs.length = L * L := by
    have hlen' : (outs.length : Int) = L * L := hlen
    exact_mod_cast hlen'
  refine ⟨S', outs, e', hl, ?_, D', R'.siteIds, hq⟩
  have T'' : Trace env .l0 L S' (S.siteIds.take outs.length) := T'
  rw [hl, ← hlen0, List.take_length] at T''
  exact T''

theorem HasWrapped.take_mono {q : List Nat} {m n : Nat} (h : HasWrapped L (q.take m)) (hmn : m ≤ n) : HasWrapped L (q.take n) :=
  ⟨h.1, h.2.mono fun _ hs => (List.take_subset_take_left q hmn) hs⟩

/-- Counting the messages: `outs` are rounds in which the message is printed from round `n` on. -/
theorem count_messages {q : List Nat} {outs : List (List (Printed α))} (h : ∀ j out, outs[j]? = some out → ViewLine env L (q.take (j + 1)) out)
    {n : Nat} (hn : ∀ j < outs.length, HasWrapped L (q.take (j + 1)) ↔ n ≤ j) :
    (outs.flatten.filter Printed.isWrap).length = outs.length - n := by
  have key : ∀ m ≤ outs.length, ((outs.take m).flatten.filter Printed.isWrap).length = m - n := by
    intro m
    induction m with
    | zero => intro _; simp
    | succ m ih =>
      intro hm
      have hm' : m < outs.length := by omega
      rw [List.take_add_one, List.getElem?_eq_getElem hm', List.flatten_append, List.filter_append, List.length_append, ih (by omega)]
      obtain ⟨g1, g2⟩ := (h m outs[m] (List.getElem?_eq_getElem hm')).messages
      simp only [Option.toList_some, List.flatten_cons, List.flatten_nil, List.append_nil]
      by_cases hc : n ≤ m
      · rw [g1 ((hn m hm').2 hc)]; omega
      · rw [g2 fun h => hc ((hn m hm').1 h)]; omega
  have := key outs.length le_rfl
  rwa [List.take_length] at this

/-- A run over all sites: the message is printed `L² + 1 - n` times if the `n`-th site makes the configuration wrap, and never on the
lattices of length 1 and 2. -/
def Messages (env : Env α) (L : Nat) (q : List Nat) (m : Nat) (pc : α) : Prop :=
  (3 ≤ L → ∃ pre k, firstWrap L [] q = some (pre, k) ∧ m + (pre.length + 1) = L * L + 1 ∧ L + (L - 1) / 2 ≤ m ∧ m + L ≤ L * L + 1 ∧
    pc = env.ar.div (env.ar.ofNat (pre.length + 1)) (env.ar.ofNat (L * L))) ∧
  (L ≤ 2 → m = 0)

theorem messages_total (D : Reach env .l0 L S) {q : List Nat} (T : Trace env .l0 L S q) (hq : q.Perm (List.range (L * L)))
    {outs : List (List (Printed α))} (hl : outs.length = L * L) (h : ∀ j out, outs[j]? = some out → ViewLine env L (q.take (j + 1)) out) :
    Messages env L q (outs.flatten.filter Printed.isWrap).length (S.getPc env) := by
  have hql : q.length = L * L := by rw [hq.length_eq, List.length_range]
  constructor
  · intro hL
    have haw : S.afterWrapping = true := T.aw_iff.2 ⟨hL, full_wraps (by omega) fun s hs => hq.mem_iff.2 (List.mem_range.2 hs)⟩
    have hup := C96_critical_upper T haw
    have hlow := C54_critical_counts D haw
    obtain ⟨_, A, M, hA, I⟩ := T.sim
    obtain ⟨pre, k, post, h1, h2, h3, h4, _⟩ := I.on (by rw [← M.aw]; exact haw)
    have hfw : firstWrap L [] q = some (pre, k) := by
      rw [h1]; exact firstWrap_of (pre0 := []) (by simpa using h2) (by simpa using h3.wraps)
    have hn : ∀ j < outs.length, HasWrapped L (q.take (j + 1)) ↔ pre.length ≤ j := by
      intro j _
      constructor
      · intro hw
        by_contra hc
        refine h2 (hw.2.mono fun s hs => ?_)
        rw [h1, List.take_append_of_le_length (by omega)] at hs
        exact List.mem_of_mem_take hs
      · intro hj
        refine ⟨hL, h3.wraps.mono fun s hs => ?_⟩
        have : q.take (pre.length + 1) = pre ++ [k] := by
          rw [h1, List.take_append, List.take_of_length_le (by omega)]; simp
        rw [← this] at hs
        exact (List.take_subset_take_left q (by omega)) hs
    have hm := count_messages h hn
    have hpl : pre.length + 1 ≤ L * L := by
      rw [← hql, h1, List.length_append, List.length_cons]; omega
    rw [M.pco, h4] at hup hlow
    have e2 := (T.reports.after hL pre k hfw).2.1
    exact ⟨pre, k, hfw, by omega, by omega, by omega, e2⟩
  · intro hL
    have hm := count_messages (n := outs.length) h (fun j hj => ⟨fun hw => absurd hw.1 (by omega), fun hj' => absurd hj' (by omega)⟩)
    omega

/-- C75: `test_relative_index` of the L0 module never raises; it prints one table per site and the message once for every placement from
the first wrapping configuration on. -/
theorem C75_relative_index_l0 (h0 : 0 < L) {fuel : Nat} (hf : L * L < fuel) (draws : Nat → Nat) (ds : Nat → Draw) :
    ∃ (S S' : Perc α) (outs : List (List (Printed α))), Perc.new env L draws = .ok S ∧
    demoRelativeIndexL0 env L fuel draws ds = .ok (S', outs.flatten) ∧ outs.length = L * L ∧
    (∀ j out, outs[j]? = some out → ViewLine env L (S.siteIds.take (j + 1)) out) ∧
    Messages env L S.siteIds (outs.flatten.filter Printed.isWrap).length (S'.getPc env) := by
  obtain ⟨S, e, F⟩ := fresh_exists env .l0 h0 draws
  obtain ⟨S', outs, e', hl, T', D', _, hq⟩ := viewDetect_loop F hf ds
  exact ⟨S, S', outs, e, by simp only [demoRelativeIndexL0, e, bind, Except.bind, e'], hl, hq,
    messages_total D'.reach T' (F.perm rfl).1 hl hq⟩

/-- C75: `test_reset_relative_index` never raises; the two runs print their own messages, for the order before and the order after
`reset`, and nothing of the first run shows up in the second one. -/
theorem C75_reset_relative_index (h0 : 0 < L) {fuel : Nat} (hf : L * L < fuel) (draws draws' : Nat → Nat) (ds ds' : Nat → Draw) :
    ∃ (S S1 S2 S3 : Perc α) (outs outs' : List (List (Printed α))), Perc.new env L draws = .ok S ∧ S1.reset env .l0 draws' = .ok S2 ∧
    S2.siteIds = pyShuffle draws' S.siteIds ∧
    demoResetRelativeIndex env L fuel draws ds draws' ds' = .ok (S3, outs.flatten ++ .text resetText :: outs'.flatten) ∧
    outs.length = L * L ∧ outs'.length = L * L ∧
    (∀ j out, outs[j]? = some out → ViewLine env L (S.siteIds.take (j + 1)) out) ∧
    (∀ j out, outs'[j]? = some out → ViewLine env L (S2.siteIds.take (j + 1)) out) ∧
    Messages env L S.siteIds (outs.flatten.filter Printed.isWrap).length (S1.getPc env) ∧
    Messages env L S2.siteIds (outs'.flatten.filter Printed.isWrap).length (S3.getPc env) := by
  obtain ⟨S, e, F⟩ := fresh_exists env .l0 h0 draws
  obtain ⟨S1, outs, e1, hl, T1, D1, hids, hq⟩ := viewDetect_loop F hf ds
  obtain ⟨S2, er, _, _, _, _, _, _, hsh⟩ := D1.live.reset draws'
  have F2 : Fresh env .l0 L S2 := .reset D1 er
  obtain ⟨S3, outs', e3, hl', T3, D3, _, hq'⟩ := viewDetect_loop F2 hf ds'
  refine ⟨S, S1, S2, S3, outs, outs', e, er, ?_, ?_, hl, hl', hq, hq', messages_total D1.reach T1 (F.perm rfl).1 hl hq,
    messages_total D3.reach T3 (F2.perm rfl).1 hl' hq'⟩
  · rw [(hsh rfl).1, hids]
  · simp only [demoResetRelativeIndex, e, bind, Except.bind, e1, er, e3]
    rfl

/-- What is printed by one round of the L0 `test_detect_wrapping` before anything wraps. -/
def L0Line (env : Env α) (L : Nat) (q : List Nat) (out : Printed α) : Prop :=
  ∃ (T : Perc α) (h1 : α), Reach env .l0 L T ∧ (∀ s, T.Occ s ↔ s ∈ q) ∧ T.entropyV1 env = .ok h1 ∧
    out = .values ["p= ", " entropy_v1 ", " entropy_v2 ", " order wrapping ", " order largest "]
      [prob env L q, h1, T.entropy, env.ar.ofNat 0, ordL env L q]

theorem foundText_eq : foundText = "Wrapping detected ***************** <<<\n".toList := by decide +kernel

theorem detect_lsz {A : Abs α} {w : Bool} (M : Sim env L S A) (I : AInv L A) (hd : S.detectWrapping = .ok (S', w)) :
    S'.orderLargest env = S.orderLargest env ∧ S'.occupationProb env = S.occupationProb env ∧ S'.lat = S.lat ∧
      S'.maxIter = S.maxIter ∧ S'.pool = S.pool ∧ S'.entropy = S.entropy := by
  rcases detectWrapping_sim M I hd with ⟨_, rfl, _⟩ | ⟨_, k, _, ⟨_, rfl, _⟩ | ⟨_, _, _, rfl⟩⟩ <;> exact ⟨rfl, rfl, rfl, rfl, rfl, rfl⟩

theorem lineDetect_loop {ids : List Nat} (hnd : ids.Nodup) (fuel : Nat) : ∀ {S : Perc α} {i : Nat} (ds : Nat → Draw),
    DefReach env .l0 L S → L0Ready L S ids i → Trace env .l0 L S (ids.take i) → ¬ HasWrapped L (ids.take i) → ids.length - i < fuel →
    ∃ (S' : Perc α) (outs : List (Printed α)), (∀ j o, outs[j]? = some o → L0Line env L (ids.take (i + j + 1)) o) ∧
      ((¬ HasWrapped L ids ∧ outs.length = ids.length - i ∧ demoLoop env .l0 (Body.lineDetect env) fuel ds S = .ok (S', outs) ∧
          (∀ s ∈ ids, S'.Occ s)) ∨
        ∃ n, i ≤ n ∧ n < ids.length ∧ outs.length = n + 1 - i ∧ ¬ HasWrapped L (ids.take n) ∧ HasWrapped L (ids.take (n + 1)) ∧
          demoLoop env .l0 (Body.lineDetect env) fuel ds S = .ok (S', outs ++ [foundLine env S', .text foundText]) ∧
          Trace env .l0 L S' (ids.take (n + 1))) := by
  induction fuel with
  | zero => intro S i ds _ _ _ _ h; omega
  | succ fuel ih =>
    intro S i ds D H Tr hnw hf
    obtain ⟨S1, b, p1, _⟩ := D.live.place (ds 0)
    have D1 := D.placeTo p1
    cases b with
    | false =>
      obtain ⟨hi, e1, H1⟩ := H.last rfl hnd D.live.sim p1
      refine ⟨S1, [], fun j o h => by simp at h, .inl ⟨?_, by simp [hi], by simp only [demoLoop, p1, bind, Except.bind]; rfl, fun s hs => ?_⟩⟩
      · rw [hi, List.take_length] at hnw; exact hnw
      · rw [H1.occ, hi, List.take_length]; exact hs
    | true =>
      obtain ⟨A, M, hA⟩ := D1.live.sim
      obtain ⟨k, hk, et, hfl, hsel, H1⟩ := H.round rfl hnd D.live.sim p1
      have hi : i < ids.length := (List.getElem?_eq_some_iff.1 hk).1
      obtain ⟨S2, w2, hd⟩ := detectWrapping_ok M hA.inv (by rw [hsel]; simp)
      have T2 := Tr.placed p1 hfl hsel hd
      rw [et] at T2
      have D2 := D1.detectTo hd
      obtain ⟨A2, M2, hA2⟩ := D2.live.sim
      obtain ⟨K, hocc, _⟩ := detectWrapping_keep M hA.inv hd
      obtain ⟨S3, w, hd3⟩ := detectWrapping_ok M2 hA2.inv (by rw [K.selected, hsel]; simp)
      have T3 := T2.detect hd3
      have D3 := D2.detectTo hd3
      obtain ⟨A3, M3, hA3⟩ := D3.live.sim
      obtain ⟨K3, hocc3, _⟩ := detectWrapping_keep M2 hA2.inv hd3
      obtain ⟨q1, q2, _, q4, _⟩ := detect_lsz M hA.inv hd
      obtain ⟨_, _, _, r4, _⟩ := detect_lsz M2 hA2.inv hd3
      have hw : w = true ↔ HasWrapped L (ids.take (i + 1)) := by
        obtain ⟨_, _, _, A', _, M', haw, _⟩ := detectWrapping_steps M2 hA2.inv hd3
        rw [← haw, ← M'.aw, T3.aw_iff]
      have ha : S.afterWrapping = false := by
        cases h : S.afterWrapping with
        | false => rfl
        | true => exact absurd (Tr.aw_iff.1 h) hnw
      have ha1 := D.awOff ha p1
      obtain ⟨h1, e1⟩ := D1.reach.entropyV1_total
      have ew : S1.orderWrapping env = .ok (env.ar.ofNat 0) := by rw [Perc.orderWrapping, ha1]; rfl
      obtain ⟨l, el⟩ : ∃ l : Printed α, l = .values ["p= ", " entropy_v1 ", " entropy_v2 ", " order wrapping ", " order largest "]
        [S1.occupationProb env, h1, S1.entropy, env.ar.ofNat 0, S1.orderLargest env] := ⟨_, rfl⟩
      have efl : fullLine env S1 = .ok l := by simp only [fullLine, e1, ew, bind, Except.bind, el]; rfl
      have hline : L0Line env L (ids.take (i + 1)) l := by
        refine ⟨S1, h1, D1.reach, H1.occ, e1, ?_⟩
        rw [el, ← q1, ← q2, T2.reports.prob, T2.reports.ordLargest]; rfl
      cases w with
      | true =>
        refine ⟨S3, [l], ?_, .inr ⟨i, le_rfl, hi, by simp, hnw, hw.1 rfl, ?_, T3⟩⟩
        · intro j o hj
          cases j with
          | zero => rw [List.getElem?_cons_zero] at hj; cases hj; exact hline
          | succ j => simp at hj
        · simp only [demoLoop, p1, Body.lineDetect, efl, hd, hd3, bind, Except.bind]
          rfl
      | false =>
        have hnw' : ¬ HasWrapped L (ids.take (i + 1)) := fun h => by have := hw.2 h; cases this
        have H3 : L0Ready L S3 ids (i + 1) := (H1.congr K.siteIds q4 K.currentIdx hocc).congr K3.siteIds r4 K3.currentIdx hocc3
        obtain ⟨S', outs, hq, hor⟩ := ih (fun j => ds (j + 1)) D3 H3 T3 hnw' (by omega)
        have step : ∀ o, demoLoop env .l0 (Body.lineDetect env) fuel (fun j => ds (j + 1)) S3 = .ok (S', o) →
            demoLoop env .l0 (Body.lineDetect env) (fuel + 1) ds S = .ok (S', l :: o) := by
          intro o ho
          simp only [demoLoop, p1, Body.lineDetect, efl, hd, hd3, bind, Except.bind, pure, Except.pure, Bool.false_eq_true, if_false, if_true, ho]
          rfl
        refine ⟨S', l :: outs, ?_, ?_⟩
        · intro j o hj
          cases j with
          | zero => rw [List.getElem?_cons_zero] at hj; cases hj; exact hline
          | succ j =>
            rw [List.getElem?_cons_succ] at hj
            rw [show i + (j + 1) + 1 = i + 1 + j + 1 by omega]; exact hq j o hj
        · rcases hor with ⟨g1, g2, g3, g4⟩ | ⟨n, g1, g2, g3, g4, g5, g6, g7⟩
          · exact .inl ⟨g1, by rw [List.length_cons, g2]; omega, step _ g3, g4⟩
          · exact .inr ⟨n, by omega, g2, by rw [List.length_cons, g3]; omega, g4, g5, step _ g6, g7⟩

/-- C75: `test_detect_wrapping` of the L0 module prints, on lattices of length 3 or more, one line per placement up to and including the one
that makes the sites wrap, all with wrapping order parameter 0; then one line with the values at that point and the message; and the
object reports that moment as `get_pc()`.  On shorter lattices it prints `L²` lines and no message. -/
theorem C75_detect_l0 (h0 : 0 < L) {fuel : Nat} (hf : L * L < fuel) (draws : Nat → Nat) (ds : Nat → Draw) :
    ∃ (S S' : Perc α) (outs : List (Printed α)), Perc.new env L draws = .ok S ∧
    (∀ j o, outs[j]? = some o → L0Line env L (S.siteIds.take (j + 1)) o) ∧
    (3 ≤ L → ∃ pre k, firstWrap L [] S.siteIds = some (pre, k) ∧ outs.length = pre.length + 1 ∧
      demoDetectL0 env L fuel draws ds = .ok (S', outs ++ [.values ["p= ", " entropy ", " order "]
        [prob env L (pre ++ [k]), S'.entropy, ordL env L (pre ++ [k])], .text "Wrapping detected ***************** <<<\n".toList]) ∧
      Trace env .l0 L S' (pre ++ [k]) ∧ S'.getPc env = prob env L (pre ++ [k])) ∧
    (L ≤ 2 → outs.length = L * L ∧ demoDetectL0 env L fuel draws ds = .ok (S', outs) ∧ ∀ s < L * L, S'.Occ s) := by
  rw [← foundText_eq]
  obtain ⟨S, e, F⟩ := fresh_exists env .l0 h0 draws
  obtain ⟨hperm, R⟩ := F.perm rfl
  have hnd : S.siteIds.Nodup := hperm.nodup_iff.2 List.nodup_range
  have hlen0 : S.siteIds.length = L * L := by rw [hperm.length_eq, List.length_range]
  have hnw : ¬ HasWrapped L (S.siteIds.take 0) := fun h => by
    have := F.trace.aw_iff.2 h
    obtain ⟨_, A, M, hA, I⟩ := F.trace.sim
    obtain ⟨pre, k, post, h1, _⟩ := I.on (by rw [← M.aw]; exact this)
    simp at h1
  have hfull : ∀ s, s < L * L → s ∈ S.siteIds := fun s hs => hperm.mem_iff.2 (List.mem_range.2 hs)
  obtain ⟨S', outs, hq, hor⟩ := lineDetect_loop (env := env) hnd fuel ds F.defReach R F.trace hnw (by omega)
  refine ⟨S, S', outs, e, fun j o hj => by have := hq j o hj; rwa [Nat.zero_add] at this, fun hL => ?_, fun hL => ?_⟩
  · rcases hor with ⟨g1, _⟩ | ⟨n, g1, g2, g3, g4, g5, g6, g7⟩
    · exact absurd ⟨hL, full_wraps (by omega) hfull⟩ g1
    · have hk := List.getElem?_eq_getElem g2
      have et : S.siteIds.take (n + 1) = S.siteIds.take n ++ [S.siteIds[n]] := by rw [List.take_add_one, hk]; rfl
      have hd : S.siteIds = S.siteIds.take n ++ S.siteIds[n] :: S.siteIds.drop (n + 1) := by
        rw [← List.drop_eq_getElem_cons g2, List.take_append_drop]
      have hnw' : ¬ Wraps L (· ∈ S.siteIds.take n) := fun h => g4 ⟨hL, h⟩
      have hw' : Wraps L (· ∈ S.siteIds.take n ++ [S.siteIds[n]]) := et ▸ g5.2
      have hfw : firstWrap L [] S.siteIds = some (S.siteIds.take n, S.siteIds[n]) := by
        have := firstWrap_of (pre0 := []) (pre := S.siteIds.take n) (post := S.siteIds.drop (n + 1)) (by rw [List.nil_append]; exact hnw') (by rw [List.nil_append]; exact hw')
        rw [← hd] at this
        simpa using this
      have hfw' : firstWrap L [] (S.siteIds.take n ++ [S.siteIds[n]]) = some (S.siteIds.take n, S.siteIds[n]) := by
        have := firstWrap_of (pre0 := []) (pre := S.siteIds.take n) (post := []) (by rw [List.nil_append]; exact hnw') (by rw [List.nil_append]; exact hw')
        simpa using this
      rw [et] at g7
      refine ⟨_, _, hfw, ?_, ?_, g7, ?_⟩
      · rw [g3, List.length_take]; omega
      · simp only [demoDetectL0, e, bind, Except.bind, g6]
        rw [foundLine, g7.reports.prob, g7.reports.ordLargest]; rfl
      · rw [(g7.reports.after hL _ _ hfw').2.1, prob, List.length_append]; rfl
  · rcases hor with ⟨_, g2, g3, g4⟩ | ⟨n, _, _, _, _, g5, _⟩
    · exact ⟨by rw [g2, hlen0]; rfl, by simp only [demoDetectL0, e, bind, Except.bind, g3], fun s hs => g4 s (hfull s hs)⟩
    · exact absurd g5.1 (by omega)

/-! ### The functions of the L1/L2 module -/

/-- The successive sequences of placed sites during `n` calls of `place_one_site`: every call adds at most one site, at the end. -/
def Grow (n : Nat) (q : Nat → List Nat) : Prop :=
  q 0 = [] ∧ ∀ j < n, q (j + 1) = q j ∨ ∃ k, q (j + 1) = q j ++ [k]

/-- Loop rule for bodies that detect once per round and print something that depends on the sequences before and after the round. -/
theorem chain_loop {body : Body α} {line : List Nat → List Nat → List (Printed α) → Prop} (F : Fresh env v L S)
    (hb : ∀ {T T1 T2 : Perc α} {q q2 : List Nat} {d : Draw} {w : Bool}, DefReach env v L T → Trace env v L T q →
      T.placeOneSite env v d = .ok (T1, true) → T1.detectWrapping = .ok (T2, w) → Trace env v L T2 q2 →
      ∃ out, body T1 = .ok (T2, out, false) ∧ line q q2 out)
    {fuel : Nat} (hf : initBudget L v < fuel) (ds : Nat → Draw) :
    ∃ (S' : Perc α) (outs : List (List (Printed α))) (q : Nat → List Nat), demoLoop env v body fuel ds S = .ok (S', outs.flatten) ∧
      (outs.length : Int) = initBudget L v ∧ Grow outs.length q ∧ (q outs.length).Perm (List.range (L * L)) ∧
      Trace env v L S' (q outs.length) ∧ DefReach env v L S' ∧ (∀ s < L * L, S'.Occ s) ∧
      ∀ j out, outs[j]? = some out → line (q j) (q (j + 1)) out := by
  obtain ⟨S', outs, e', ⟨D', q, hg, T', _, hq⟩, hfull, hlen⟩ := demoLoop_rule (env := env) (v := v) (L := L) (body := body)
    (P := fun outs T => DefReach env v L T ∧ ∃ q : Nat → List Nat, Grow outs.length q ∧ Trace env v L T (q outs.length) ∧
      (T.budget L v = 0 ∨ (q outs.length ≠ [] → T.selected ≠ none)) ∧ ∀ j out, outs[j]? = some out → line (q j) (q (j + 1)) out)
    (fun outs T h => h.1.live)
    (fun outs T T1 d h hp => by
      obtain ⟨D, q, hg, Tr, hsel, hq⟩ := h
      have D1 := D.placeTo hp
      have hsel' : q outs.length ≠ [] → T.selected ≠ none := by
        refine hsel.resolve_left fun h0 => ?_
        obtain ⟨U, b, hU, _, ht, _⟩ := D.live.place d
        rw [hp] at hU
        obtain ⟨rfl, rfl⟩ := Prod.mk.inj (Except.ok.inj hU)
        have := (ht rfl).1
        omega
      obtain ⟨T2, w, q2, hd, Tr2, _, hs2, _, hgrow⟩ := Tr.placeDetect hsel' hp
      obtain ⟨out, ho, hline⟩ := hb D Tr hp hd Tr2
      have e1 : Function.update q (outs.length + 1) q2 (outs.length + 1) = q2 := Function.update_self ..
      have e2 : ∀ j ≤ outs.length, Function.update q (outs.length + 1) q2 j = q j := fun j hj => Function.update_of_ne (by omega) ..
      refine ⟨T2, out, ho, ⟨D1.detectTo hd, Function.update q (outs.length + 1) q2, ⟨?_, ?_⟩, ?_, .inr fun _ => hs2, ?_⟩, (D1.live.detect hd).2⟩
      · rw [e2 0 (by omega)]; exact hg.1
      · intro j hj
        rw [List.length_append] at hj
        rw [e2 j (by simp at hj; omega)]
        by_cases hj' : j = outs.length
        · subst hj'; rw [e1]; exact hgrow
        · rw [e2 (j + 1) (by simp at hj; omega)]; exact hg.2 j (by simp at hj; omega)
      · rw [List.length_append]; show Trace env v L T2 (Function.update q (outs.length + 1) q2 (outs.length + 1)); rw [e1]; exact Tr2
      · intro j o hj
        rcases getElem?_snoc hj with hj | ⟨rfl, rfl⟩
        · have := (List.getElem?_eq_some_iff.1 hj).1
          rw [e2 j (by omega), e2 (j + 1) (by omega)]; exact hq j o hj
        · rw [e1, e2 _ le_rfl]; exact hline)
    (fun outs T T1 d h hp => by
      obtain ⟨D, q, hg, Tr, hsel, hq⟩ := h
      refine ⟨D.placeTo hp, q, hg, (Tr.placeLast D.live hp).1, .inl ?_, hq⟩
      obtain ⟨U, b, hU, _, _, hf⟩ := D.live.place d
      rw [hp] at hU
      obtain ⟨rfl, rfl⟩ := Prod.mk.inj (Except.ok.inj hU)
      exact (hf rfl).2.1)
    fuel (outs0 := []) ds ⟨F.defReach, fun _ => [], ⟨rfl, fun j hj => .inl rfl⟩, F.trace, .inr fun h => absurd rfl h, fun j out h => by simp at h⟩
    (by rw [F.live.2.1]; exact hf)
  rw [F.live.2.1] at hlen
  refine ⟨S', outs, q, e', hlen, hg, ?_, T', D', hfull, hq⟩
  have T'' : Trace env v L S' (q outs.length) := T'
  obtain ⟨hnd, hlt⟩ := T''.seq_nodup_lt
  rw [List.perm_ext_iff_of_nodup hnd List.nodup_range]
  intro s
  rw [List.mem_range]
  exact ⟨hlt s, fun hs => (T''.reports.occ s).1 (hfull s hs)⟩

theorem flatten_single {β γ : Type} (f : β → γ) (l : List β) : (l.map fun t => [f t]).flatten = l.map f := by
  induction l with
  | nil => rfl
  | cons t ts ih => rw [List.map_cons, List.flatten_cons, ih]; rfl

/-- C75: `test_L1` prints a table of relative indices after each of `5 L²` calls of `place_one_site`, each for a state in which exactly the
sites placed so far are occupied; then the moment of the first wrapping, the summary, and the clusters of the full lattice, of which
there is one. -/
theorem C75_L1 (h0 : 0 < L) {fuel : Nat} (hf : 5 * (L * L) < fuel) (draws : Nat → Nat) (ds : Nat → Draw) :
    ∃ (S' : Perc α) (tables : List Text) (q : Nat → List Nat),
    demoL1 env L fuel draws ds = .ok (S', tables.map .text ++
      [.values ["tc = "] [S'.getPc env], .text S'.occupiedSummaryL1, .text S'.viewCluster]) ∧
    tables.length = 5 * (L * L) ∧ Grow (5 * (L * L)) q ∧ (q (5 * (L * L))).Perm (List.range (L * L)) ∧
    (∀ j t, tables[j]? = some t → ∃ T : Perc α, Reach env .l1 L T ∧ (∀ s, T.Occ s ↔ s ∈ q (j + 1)) ∧ T.viewLattice 3 = .ok t) ∧
    (L ≤ 2 → S'.getPc env = env.ar.ofNat 0) ∧
    (3 ≤ L → ∃ pre k, firstWrap L [] (q (5 * (L * L))) = some (pre, k) ∧ S'.getPc env = prob env L (pre ++ [k])) ∧
    ∃ (g : Nat) (ss bs : List Nat), numbers S'.viewCluster = clusterNums g g ss bs ++ [1] ∧ ss.Perm (List.range (L * L)) ∧
      bs.Perm (List.range (2 * (L * L))) := by
  obtain ⟨S, e, F⟩ := fresh_exists env .l1 h0 draws
  obtain ⟨S', outs, q, e', hlen, hg, hperm, T', D', hfull, hq⟩ := chain_loop F (body := Body.detectView)
    (line := fun _ q2 out => ∃ t, out = [.text t] ∧ ∃ T : Perc α, Reach env .l1 L T ∧ (∀ s, T.Occ s ↔ s ∈ q2) ∧ T.viewLattice 3 = .ok t)
    (fun {T T1 T2 q q2 d w} D _ hp hd Tr2 => by
      have D2 := (D.placeTo hp).detectTo hd
      obtain ⟨t, ht⟩ := D2.reach.viewLattice_total 3
      exact ⟨[.text t], by simp only [Body.detectView, hd, bind, Except.bind, ht]; rfl, t, rfl, T2, D2.reach, Tr2.reports.occ, ht⟩)
    (initBudget_lt hf .l1) ds
  have hl : outs.length = 5 * (L * L) := by
    have hlen' : (outs.length : Int) = 5 * (L * L) := hlen
    exact_mod_cast hlen'
  rw [hl] at hg hperm T'
  obtain ⟨tables, ht⟩ : ∃ tables : List Text, outs = tables.map fun t => [.text t] := by
    refine ⟨outs.map fun o => match o with | [.text t] => t | _ => [], ?_⟩
    rw [List.map_map]
    refine (List.map_id' outs).symm.trans (List.map_congr_left fun o ho => ?_)
    obtain ⟨j, hj⟩ := List.mem_iff_getElem?.1 ho
    obtain ⟨t, rfl, _⟩ := hq j o hj
    rfl
  have hflat : outs.flatten = tables.map .text := by rw [ht]; exact flatten_single _ _
  refine ⟨S', tables, q, ?_, ?_, hg, hperm, ?_, ?_, ?_, full_view D'.reach hfull⟩
  · rw [hflat] at e'
    simp only [demoL1, e, bind, Except.bind, e']; rfl
  · rw [← hl, ht, List.length_map]
  · intro j t hj
    obtain ⟨t', h1, h2⟩ := hq j [.text t] (by rw [ht, List.getElem?_map, hj]; rfl)
    obtain rfl : t = t' := by simpa using h1
    exact h2
  · intro hL; exact (T'.reports.small (by omega)).2.1
  · intro hL
    have hw : Wraps L (· ∈ q (5 * (L * L))) := full_wraps (by omega) fun s hs => hperm.mem_iff.2 (List.mem_range.2 hs)
    cases hfw : firstWrap L [] (q (5 * (L * L))) with
    | none =>
      have h1 := (T'.reports.before hL hfw).1
      have := T'.aw_iff.2 ⟨hL, hw⟩
      rw [h1] at this; cases this
    | some p =>
      refine ⟨p.1, p.2, rfl, ?_⟩
      rw [(T'.reports.after hL p.1 p.2 hfw).2.1, prob, List.length_append]; rfl

/-- What one round of `test_detect_wrapping_L1L2` prints; `q` are the sites placed before, `q2` after the placement of the round.  The line
is printed before the wrapping detection of the round. -/
def L1Line (env : Env α) (L : Nat) (q q2 : List Nat) (out : Printed α) : Prop :=
  ∃ (T : Perc α) (h1 w : α), Reach env .l1 L T ∧ (∀ s, T.Occ s ↔ s ∈ q2) ∧ T.entropyV1 env = .ok h1 ∧
    (HasWrapped L q → w = ordW env L q2) ∧ (¬ HasWrapped L q → w = env.ar.ofNat 0) ∧
    out = .values ["p= ", " entropy_v1 ", " entropy_v2 ", " order wrapping ", " order largest "] [prob env L q2, h1, T.entropy, w, ordL env L q2]

/-- One round of `test_detect_wrapping_L1L2`. -/
theorem lineThenDetect_line {T T1 T2 : Perc α} {q q2 : List Nat} {d : Draw} {w : Bool} (D : DefReach env .l1 L T) (Tr : Trace env .l1 L T q)
    (hp : T.placeOneSite env .l1 d = .ok (T1, true)) (hd : T1.detectWrapping = .ok (T2, w)) (Tr2 : Trace env .l1 L T2 q2) :
    ∃ out, Body.lineThenDetect env T1 = .ok (T2, out, false) ∧ ∃ o, out = [o] ∧ L1Line env L q q2 o := by
  have D1 := D.placeTo hp
  obtain ⟨A, M, hA⟩ := D1.live.sim
  obtain ⟨h1, e1⟩ := D1.reach.entropyV1_total
  obtain ⟨a1, a2, _⟩ := detect_lsz M hA.inv hd
  obtain ⟨_, hocc, _⟩ := detectWrapping_keep M hA.inv hd
  have hw : ∃ w, T1.orderWrapping env = .ok w ∧ (HasWrapped L q → w = ordW env L q2) ∧ (¬ HasWrapped L q → w = env.ar.ofNat 0) := by
    by_cases h : HasWrapped L q
    · have haw : T1.afterWrapping = true := by
        obtain ⟨A0, M0, hA0⟩ := D.live.sim
        have h0 := Tr.aw_iff.2 h
        rw [M0.aw] at h0
        obtain ⟨_, V1, _, ⟨_, _, k, r, V', P', _, _, _, _, _, M1⟩ | ⟨_, _, M1⟩ | ⟨_, _, M1⟩⟩ := placeOneSite_sim M0 hA0.inv hp
        · rw [M1.aw]; exact h0
        · rw [M1.aw]; exact h0
        · rw [M1.aw]; exact h0
      have heq : T2 = T1 := by
        rcases detectWrapping_sim M hA.inv hd with ⟨_, h, _⟩ | ⟨h, _⟩
        · exact h
        · rw [← M.aw, haw] at h; cases h
      refine ⟨ordW env L q2, by rw [← heq]; exact Tr2.ordW, fun _ => rfl, fun h' => absurd h h'⟩
    · have ha : T.afterWrapping = false := by
        cases h' : T.afterWrapping with
        | false => rfl
        | true => exact absurd (Tr.aw_iff.1 h') h
      exact ⟨env.ar.ofNat 0, by rw [Perc.orderWrapping, D.awOff ha hp]; rfl, fun h' => absurd h' h, fun _ => rfl⟩
  obtain ⟨x, ex, hx, hx'⟩ := hw
  refine ⟨_, by simp only [Body.lineThenDetect, fullLine, e1, ex, hd, bind, Except.bind]; rfl, _, rfl, T1, h1, x, D1.reach,
    fun s => by rw [← hocc, Tr2.reports.occ], e1, hx, hx', ?_⟩
  rw [← a1, ← a2, Tr2.reports.prob, Tr2.reports.ordLargest]; rfl

/-- C75: `test_detect_wrapping_L1L2` prints one line for each of the `5 L²` calls of `place_one_site` (far more than there are sites);
the wrapping order parameter it shows lags one placement behind. -/
theorem C75_detect_l1 (h0 : 0 < L) {fuel : Nat} (hf : 5 * (L * L) < fuel) (draws : Nat → Nat) (ds : Nat → Draw) :
    ∃ (S' : Perc α) (outs : List (Printed α)) (q : Nat → List Nat), demoDetectL1 env L fuel draws ds = .ok (S', outs) ∧
    outs.length = 5 * (L * L) ∧ Grow (5 * (L * L)) q ∧ (q (5 * (L * L))).Perm (List.range (L * L)) ∧
    (∀ j o, outs[j]? = some o → L1Line env L (q j) (q (j + 1)) o) ∧ Trace env .l1 L S' (q (5 * (L * L))) := by
  obtain ⟨S, e, F⟩ := fresh_exists env .l1 h0 draws
  obtain ⟨S', outs, q, e', hlen, hg, hperm, T', D', hfull, hq⟩ := chain_loop F (body := Body.lineThenDetect env)
    (line := fun q q2 out => ∃ o, out = [o] ∧ L1Line env L q q2 o)
    (fun D Tr hp hd Tr2 => lineThenDetect_line D Tr hp hd Tr2)
    (initBudget_lt hf .l1) ds
  have hl : outs.length = 5 * (L * L) := by
    have hlen' : (outs.length : Int) = 5 * (L * L) := hlen
    exact_mod_cast hlen'
  rw [hl] at hg hperm T'
  obtain ⟨os, ho⟩ : ∃ os : List (Printed α), outs = os.map fun o => [o] := by
    refine ⟨outs.map fun o => o.headD (.text []), ?_⟩
    rw [List.map_map]
    refine (List.map_id' outs).symm.trans (List.map_congr_left fun o ho => ?_)
    obtain ⟨j, hj⟩ := List.mem_iff_getElem?.1 ho
    obtain ⟨t, rfl, _⟩ := hq j o hj
    rfl
  have hflat : outs.flatten = os := by rw [ho]; exact (flatten_single id os).trans (List.map_id os)
  refine ⟨S', os, q, ?_, ?_, hg, hperm, ?_, T'⟩
  · rw [hflat] at e'
    simp only [demoDetectL1, e, bind, Except.bind, e']
  · rw [← hl, ho, List.length_map]
  · intro j t hj
    obtain ⟨t', h1, h2⟩ := hq j [t] (by rw [ho, List.getElem?_map, hj]; rfl)
    obtain rfl : t = t' := by simpa using h1
    exact h2

/-- C75: `test_L2` prints a table of relative indices after each of `5 L²` calls, then the summary, a table of the full lattice and its
single cluster.  The wrapping is never looked for: `get_pc()` stays 0. -/
theorem C75_L2 (h0 : 0 < L) {fuel : Nat} (hf : 5 * (L * L) < fuel) (draws : Nat → Nat) (ds : Nat → Draw) :
    ∃ (S' : Perc α) (tables : List Text) (t1 : Text), demoL2 env L fuel draws ds = .ok (S', tables.map .text ++
      [.text S'.occupiedSummaryL2, .text t1, .text S'.viewCluster]) ∧
    tables.length = 5 * (L * L) ∧ (∀ t ∈ tables, ∃ T : Perc α, Reach env .l2 L T ∧ T.viewLattice 3 = .ok t) ∧
    Reach env .l2 L S' ∧ (∀ s < L * L, S'.Occ s) ∧ S'.afterWrapping = false ∧ S'.getPc env = env.ar.ofNat 0 ∧ S'.viewLattice 1 = .ok t1 ∧
    ∃ (g : Nat) (ss bs : List Nat), numbers S'.viewCluster = clusterNums g g ss bs ++ [1] ∧ ss.Perm (List.range (L * L)) ∧
      bs.Perm (List.range (2 * (L * L))) := by
  obtain ⟨S, e, F⟩ := fresh_exists env .l2 h0 draws
  have haw : S.afterWrapping = false := by
    cases h : S.afterWrapping with
    | false => rfl
    | true => 
      obtain ⟨_, A, M, hA, I⟩ := F.trace.sim
      obtain ⟨pre, k, post, h1, _⟩ := I.on (by rw [← M.aw]; exact h)
      simp at h1
  obtain ⟨S', outs, e', ⟨D', ha', hq⟩, hfull, hlen⟩ := demoLoop_rule (env := env) (v := .l2) (L := L) (body := Body.view)
    (P := fun outs T => DefReach env .l2 L T ∧ T.afterWrapping = false ∧ ∀ o ∈ outs, ∃ t, o = [.text t] ∧
      ∃ T : Perc α, Reach env .l2 L T ∧ T.viewLattice 3 = .ok t)
    (fun outs T h => h.1.live)
    (fun outs T T1 d h hp => by
      obtain ⟨D, ha, hq⟩ := h
      have D1 := D.placeTo hp
      obtain ⟨t, ht⟩ := D1.reach.viewLattice_total 3
      refine ⟨T1, [.text t], by simp only [Body.view, ht, bind, Except.bind]; rfl, ⟨D1, D.awOff ha hp, ?_⟩, rfl⟩
      intro o ho
      rcases List.mem_append.1 ho with ho | ho
      · exact hq o ho
      · exact ⟨t, List.mem_singleton.1 ho, T1, D1.reach, ht⟩)
    (fun outs T T1 d h hp => ⟨h.1.placeTo hp, h.1.awOff h.2.1 hp, h.2.2⟩)
    fuel (outs0 := []) ds ⟨F.defReach, haw, by simp⟩ (by rw [F.live.2.1]; exact initBudget_lt hf .l2)
  rw [F.live.2.1] at hlen
  have hl : outs.length = 5 * (L * L) := by
    have hlen' : (outs.length : Int) = 5 * (L * L) := hlen
    exact_mod_cast hlen'
  rw [List.nil_append] at hq
  obtain ⟨tables, ht⟩ : ∃ tables : List Text, outs = tables.map fun t => [.text t] := by
    refine ⟨outs.map fun o => match o with | [.text t] => t | _ => [], ?_⟩
    rw [List.map_map]
    refine (List.map_id' outs).symm.trans (List.map_congr_left fun o ho => ?_)
    obtain ⟨t, rfl, _⟩ := hq o ho
    rfl
  have hflat : outs.flatten = tables.map .text := by rw [ht]; exact flatten_single _ _
  obtain ⟨t1, e1⟩ := D'.reach.viewLattice_total 1
  refine ⟨S', tables, t1, ?_, by rw [← hl, ht, List.length_map], ?_, D'.reach, hfull, ha', ?_, e1, full_view D'.reach hfull⟩
  · rw [hflat] at e'
    simp only [demoL2, e, bind, Except.bind, e', e1]; rfl
  · intro t htt
    obtain ⟨t', h1, h2⟩ := hq [.text t] (by rw [ht]; exact List.mem_map.2 ⟨t, htt, rfl⟩)
    obtain rfl : t = t' := by simpa using h1
    exact h2
  · rw [Perc.getPc, ha']; rfl

/-! ### The functions of the shortest path script -/

/-- C75: `run_shortest_path` for `L ≥ 3`: the sites of the shuffled list are placed up to the first one that completes a row or a column of
the wrapping cluster; the table for these sites and their occupation probability are printed. -/
theorem C75_shortest_path (hL : 3 ≤ L) {fuel : Nat} (hf : L * L < fuel) (draws : Nat → Nat) :
    ∃ (S S' : Perc α) (t : Text) (n : Nat), Perc.new env L draws = .ok S ∧ 0 < n ∧ n ≤ L * L ∧
      demoShortestPath env L fuel draws = .ok (S', [.text t, .values [] [prob env L (S.siteIds.take n)]]) ∧
      Trace env .sp L S' (S.siteIds.take n) ∧ S'.viewLattice 3 = .ok t ∧
      (∃ k, S.siteIds[n - 1]? = some k ∧ Straight L (S.siteIds.take n) k) ∧
      ∀ i k, i + 1 < n → S.siteIds[i]? = some k → ¬ Straight L (S.siteIds.take (i + 1)) k := by
  obtain ⟨S, e, F⟩ := fresh_exists env .sp (L := L) (by omega) draws
  obtain ⟨hperm, R⟩ := F.perm rfl
  have hnd : S.siteIds.Nodup := hperm.nodup_iff.2 List.nodup_range
  have hlen : S.siteIds.length = L * L := by rw [hperm.length_eq, List.length_range]
  obtain ⟨S', n, e', hn, T, hb, hor⟩ := R.spRunOnce hnd F.trace (fuel := fuel) (by omega)
  obtain ⟨S'', e'', hs, _⟩ := C41_found hL F hf
  rw [e'] at e''
  obtain rfl := Except.ok.inj e''
  rcases hor with ⟨_, h2, h3, h4⟩ | ⟨h1, _⟩
  · have D' : DefReach env .sp L S' := .step (.runOnce fuel fun _ => ⟨0, 0⟩) rfl F.defReach e'
    obtain ⟨t, ht⟩ := D'.reach.viewLattice_total 3
    refine ⟨S, S', t, n, e, h3, by omega, ?_, T, ht, h4, hb⟩
    simp only [demoShortestPath, e, e', ht, bind, Except.bind]
    rw [h2, T.reports.prob]; rfl
  · rw [hs] at h1; cases h1

/-- C75: `ensemble_shortest_path_v1` counts its lines from 1 and prints in line `e` exactly the second column of row `e` of the data that
`run_ensemble` of the same script collects from the same random numbers; it raises when the latter does. -/
theorem C75_sp_print (env : Env α) (L : Nat) (ctor : Nat → Nat) (rs : List RunDraws) :
    spPrint env L ctor rs = (spEnsemble env L ctor rs).map fun rows => rows.mapIdx fun i row => (i + 1, row.2) := by
  have loop : ∀ (rs : List RunDraws) (e : Nat) (S : Perc α) (crit : List (α × α)), crit.length + 1 = e →
      (spPrintLoop env e rs S).map (fun l => (crit.mapIdx fun i row => (i + 1, row.2)) ++ l) =
        (spEnsembleLoop env rs S crit).map fun rows => rows.mapIdx fun i row => (i + 1, row.2) := by
    intro rs
    induction rs with
    | nil => intro e S crit _; simp [spPrintLoop, spEnsembleLoop, Except.map]
    | cons r rs ih =>
      intro e S crit he
      simp only [spPrintLoop, spEnsembleLoop]
      cases realisation env .sp S r with
      | error x => rfl
      | ok S1 =>
        have := ih (e + 1) S1 (crit ++ [(S1.getPc env, S1.shortestP)]) (by simp [he])
        simp only [bind, Except.bind]
        rw [← this]
        cases spPrintLoop env (e + 1) rs S1 with
        | error x => rfl
        | ok l => simp [Except.map, pure, Except.pure, he]
  simp only [spPrint, spEnsemble]
  cases Perc.new env L ctor with
  | error x => rfl
  | ok S =>
    have := loop rs 1 S [] rfl
    simp only [bind, Except.bind]
    rw [← this]
    cases spPrintLoop env 1 rs S <;> simp [Except.map]

/-! ### The lengths that are used -/

/-- The actual calls: lengths 6 (seed 0), 100 (seed 18), 5 and 6, with every possible stream of random numbers. -/
example (draws : Nat → Nat) (ds : Nat → Draw) : ∃ (S' : Perc Unit) (outs : List (Printed Unit)) (q : Nat → List Nat),
    demoDetectL1 demoEnv 100 60000 draws ds = .ok (S', outs) ∧ outs.length = 50000 ∧ (q 50000).Perm (List.range 10000) := by
  obtain ⟨S', outs, q, h1, h2, _, h3, _⟩ := C75_detect_l1 (env := demoEnv) (L := 100) (by omega) (fuel := 60000) (by omega) draws ds
  exact ⟨S', outs, q, h1, h2, h3⟩

example (draws : Nat → Nat) : ∃ (S : Perc Unit) (S' : Perc Unit) (t : Text) (n : Nat), Perc.new demoEnv 6 draws = .ok S ∧ 0 < n ∧ n ≤ 36 ∧
    demoShortestPath demoEnv 6 37 draws = .ok (S', [.text t, .values [] [()]]) := by
  obtain ⟨S, S', t, n, h1, h2, h3, h4, _⟩ := C75_shortest_path (env := demoEnv) (L := 6) (by omega) (fuel := 37) (by omega) draws
  exact ⟨S, S', t, n, h1, h2, h3, h4⟩

/-- C75: the two messages of the demonstrations, as they appear on the terminal. -/
theorem C75_messages : String.ofList wrapText = "Wrapping detected\n" ∧ String.ofList resetText = "Resetting now ************** <<<<<<<<<<\n" := by
  decide +kernel

end SqPerc
