import Verif.Proof.Roots
import Verif.Props.Roots
import Verif.Props.Output
import Verif.Props.Lattice
/-
C82: what the accessors return.
-/
namespace SqPerc

variable {α : Type} {L : Nat} {v : Variant} {env : Env α} {S S' : Perc α}

/-! ### `get_cluster` -/

theorem Sim.getCluster {A : Abs α} (M : Sim env L S A) {c : Int} (h0 : 0 ≤ c) (h1 : c < (2 * (L * L) : Nat)) :
    S.pool.getCluster c = .ok ([], some ⟨A.P.cs c, A.P.cb c, A.P.cg c, A.P.ci c⟩) := by
  have hl : (mkPool (2 * (L * L)) A.P).clusters.length = 2 * (L * L) := by simp [mkPool]
  rw [M.pool, ClusterPool.getCluster, if_neg (by rw [hl]; omega), pyGetI_mkPool h0 h1]
  rfl

/-- C82: `get_cluster(c)` for every int `c`.  From the number of bonds on it prints a message and returns None; a negative id counts from the
end, and only below minus the number of bonds the call raises IndexError; any other id gives the cluster whose bond and site lists
`get_bonds` and `get_sites` return.  That cluster has the gid and the id `c`, or it has been merged into another one: then both lists are empty
and both ids are -1. -/
theorem C82_get_cluster (h : Reach env v L S) (c : Int) :
    ((2 * (L * L) : Nat) ≤ c → S.pool.getCluster c = .ok (println "Cluster does not exists".toList, none)) ∧
    (c < 0 → -((2 * (L * L) : Nat) : Int) ≤ c → S.pool.getCluster c = S.pool.getCluster ((2 * (L * L) : Nat) + c)) ∧
    (c < -((2 * (L * L) : Nat) : Int) → S.pool.getCluster c = .error .indexError) ∧
    (0 ≤ c → c < (2 * (L * L) : Nat) → ∃ cl, S.pool.getCluster c = .ok ([], some cl) ∧ S.pool.getSites c = .ok cl.siteIds ∧
      S.pool.getBonds c = .ok cl.bondIds ∧
      (cl.gid = c ∧ cl.id = c ∧ cl.bondIds ≠ [] ∨ cl.gid = -1 ∧ cl.id = -1 ∧ cl.bondIds = [] ∧ cl.siteIds = [])) := by
  obtain ⟨_, A, M, hA⟩ := h.sim
  have hl : S.pool.clusters.length = 2 * (L * L) := by rw [M.pool]; simp [mkPool]
  refine ⟨fun hc => ?_, fun h0 h1 => ?_, fun hc => ?_, fun h0 h1 => ?_⟩
  · rw [ClusterPool.getCluster, if_pos (by rw [hl]; exact hc)]
  · rw [ClusterPool.getCluster, ClusterPool.getCluster, if_neg (by rw [hl]; omega), if_neg (by rw [hl]; omega), pyGetI, pyGetI, hl,
      if_neg (by omega), if_pos h1, if_pos (by omega)]
  · rw [ClusterPool.getCluster, if_neg (by rw [hl]; omega), pyGetI, hl, if_neg (by omega), if_neg (by omega)]
    rfl
  · have hg : c ∈ gids L := mem_gids.2 ⟨h0, h1⟩
    refine ⟨_, M.getCluster h0 h1, M.getSites hg, M.getBonds hg, ?_⟩
    by_cases he : A.P.cb c = []
    · obtain ⟨e1, e2, e3⟩ := hA.cleared c h0 h1 he
      exact Or.inr ⟨e2, e3, he, e1⟩
    · exact Or.inl ⟨hA.inv.core.cgok c h0 h1 he, hA.inv.core.ciok c h0 h1 he, he⟩

/-- C82: the description of any cluster shows its id, its gid, and the numbers of sites and bonds, in this order. -/
theorem C82_cluster_text (cl : OneCluster) : numbers cl.str = [cl.id, cl.gid, cl.siteIds.length, cl.bondIds.length] := by
  have := (Shows.skip (w := ['[']) (by decide)).append ((Shows.int cl.id (c := ']') (by decide)).append
    ((Shows.skip (w := " (gid ".toList) (by decide)).append ((Shows.int cl.gid (c := ')') (by decide)).append
    ((Shows.skip (w := ": ".toList) (by decide)).append ((Shows.int cl.siteIds.length (c := ' ') (by decide)).append
    ((Shows.skip (w := "sites and ".toList) (by decide)).append ((Shows.int cl.bondIds.length (c := ' ') (by decide)).append
    (Shows.skip (w := "bonds".toList) (by decide)))))))))
  refine Shows.numbers ?_
  simpa [OneCluster.str] using this

/-- C82: a new cluster describes itself as empty, with both ids -1. -/
theorem C82_new_cluster_text : OneCluster.empty.str = "[-1] (gid -1): 0 sites and 0 bonds".toList := by decide +kernel

example : numbers (OneCluster.str ⟨[4, 5], [6, 7, 8], 3, 2⟩) = [2, 3, 2, 3] := by decide

/-- C82: `add_bonds(index, bonds)` of the pool appends the bonds to the list `get_bonds(index)` returns and changes no other list; it raises
IndexError exactly for the indices for which `get_bonds` does. -/
theorem C82_add_bonds (p : ClusterPool) (c : Int) (bs : List Nat) :
    (∀ old, p.getBonds c = .ok old → ∃ p', p.addBonds c bs = .ok p' ∧ p'.getBonds c = .ok (old ++ bs) ∧ p'.clusters.length = p.clusters.length ∧
      (∀ c', p'.getSites c' = p.getSites c') ∧
      ∀ c' : Int, (c' - c) % p.clusters.length ≠ 0 → p'.getBonds c' = p.getBonds c') ∧
    ((∃ e, p.getBonds c = .error e) → p.addBonds c bs = .error .indexError) := by
  -- the position an index stands for
  obtain ⟨l, hl⟩ : ∃ l, l = p.clusters := ⟨_, rfl⟩
  have key : ∀ c : Int, (∃ i cl, l[i]? = some cl ∧ pyGetI l c = .ok cl ∧ (∀ f, pyModifyI l c f = .ok (l.set i (f cl))) ∧ (c - i) % l.length = 0) ∨
      (pyGetI l c = .error .indexError ∧ ∀ f, pyModifyI l c f = .error .indexError) := by
    intro c
    have one : ∀ i : Nat, (∃ cl, l[i]? = some cl ∧ pyGet l i = .ok cl ∧ ∀ f, pyModify l i f = .ok (l.set i (f cl))) ∨
        (pyGet l i = .error .indexError ∧ ∀ f, pyModify l i f = .error .indexError) := by
      intro i
      cases e : l[i]? with
      | none => exact .inr ⟨by rw [pyGet, e], fun f => by rw [pyModify, e]⟩
      | some cl => exact .inl ⟨cl, rfl, by rw [pyGet, e], fun f => by rw [pyModify, e]⟩
    by_cases h0 : 0 ≤ c
    · rcases one c.toNat with ⟨cl, h1, h2, h3⟩ | ⟨h1, h2⟩
      · refine .inl ⟨c.toNat, cl, h1, by rw [pyGetI, if_pos h0, h2], fun f => by rw [pyModifyI, if_pos h0, h3], ?_⟩
        rw [Int.toNat_of_nonneg h0, sub_self, Int.zero_emod]
      · exact .inr ⟨by rw [pyGetI, if_pos h0, h1], fun f => by rw [pyModifyI, if_pos h0, h2]⟩
    · by_cases h1 : -(l.length : Int) ≤ c
      · rcases one ((l.length : Int) + c).toNat with ⟨cl, h2, h3, h4⟩ | ⟨h2, h3⟩
        · refine .inl ⟨_, cl, h2, by rw [pyGetI, if_neg h0, if_pos h1, h3], fun f => by rw [pyModifyI, if_neg h0, if_pos h1, h4], ?_⟩
          rw [Int.toNat_of_nonneg (by omega), show c - (l.length + c) = -(l.length : Int) by ring, Int.neg_emod_self]
        · exact .inr ⟨by rw [pyGetI, if_neg h0, if_pos h1, h2], fun f => by rw [pyModifyI, if_neg h0, if_pos h1, h3]⟩
      · exact .inr ⟨by rw [pyGetI, if_neg h0, if_neg h1], fun f => by rw [pyModifyI, if_neg h0, if_neg h1]⟩
  have get_set : ∀ (i : Nat) (cl x : OneCluster) (c' : Int), l[i]? = some cl →
      pyGetI (l.set i x) c' = if (c' - i) % l.length = 0 then (pyGetI l c').map fun _ => x else pyGetI l c' := by
    intro i cl x c' hi
    have hil : i < l.length := (List.getElem?_eq_some_iff.1 hi).1
    have one : ∀ j : Nat, pyGet (l.set i x) j = if i = j then (pyGet l j).map fun _ => x else pyGet l j := by
      intro j
      by_cases h : i = j
      · subst h
        rw [if_pos rfl, pyGet, pyGet, List.getElem?_set_self hil, hi]; rfl
      · rw [if_neg h, pyGet, pyGet, List.getElem?_set_ne h]
    have out : ∀ j : Nat, ¬ j < l.length → pyGet l j = .error .indexError := fun j hj => by
      rw [pyGet, List.getElem?_eq_none (by omega)]
    have same : ∀ j : Nat, ((pyGet (l.set i x) j) = if ((j : Int) - i) % l.length = 0 then (pyGet l j).map fun _ => x else pyGet l j) := by
      intro j
      rw [one]
      by_cases hj : j < l.length
      · have : i = j ↔ ((j : Int) - i) % l.length = 0 := by
          constructor
          · rintro rfl; simp
          · intro h
            obtain ⟨k, hk⟩ := Int.dvd_of_emod_eq_zero h
            rcases lt_trichotomy k 0 with h0 | rfl | h0
            · have : (l.length : Int) * k ≤ (l.length : Int) * (-1) := Int.mul_le_mul_of_nonneg_left (by omega) (by omega)
              omega
            · omega
            · have : (l.length : Int) * 1 ≤ (l.length : Int) * k := Int.mul_le_mul_of_nonneg_left (by omega) (by omega)
              omega
        simp only [this]
      · rw [out j hj, if_neg (by omega)]
        split <;> rfl
    by_cases h0 : 0 ≤ c'
    · rw [pyGetI, if_pos h0, pyGetI, if_pos h0, same, Int.toNat_of_nonneg h0]
    · by_cases h1 : -(l.length : Int) ≤ c'
      · rw [pyGetI, if_neg h0, List.length_set, if_pos h1, pyGetI, if_neg h0, if_pos h1, same, Int.toNat_of_nonneg (by omega),
          show (l.length : Int) + c' - i = c' - i + l.length by ring, Int.add_emod_right]
      · rw [pyGetI, if_neg h0, List.length_set, if_neg h1, pyGetI, if_neg h0, if_neg h1]
        split <;> rfl
  constructor
  · intro old ho
    rw [ClusterPool.getBonds, ← hl] at ho
    rcases key c with ⟨i, cl, h1, h2, h3, h4⟩ | ⟨h1, _⟩
    · rw [h2] at ho
      have hold : cl.bondIds = old := Except.ok.inj ho
      refine ⟨{ p with clusters := l.set i { cl with bondIds := cl.bondIds ++ bs } }, ?_, ?_, ?_, ?_, ?_⟩
      · rw [ClusterPool.addBonds, ← hl, h3]; rfl
      · show (pyGetI (l.set i _) c >>= _) = _
        rw [get_set i cl _ c h1, if_pos h4, h2, ← hold]; rfl
      · rw [← hl]; exact List.length_set
      · intro c'
        rw [ClusterPool.getSites, ClusterPool.getSites, ← hl]
        show (pyGetI (l.set i _) c' >>= _) = _
        rw [get_set i cl _ c' h1]
        split
        · rename_i h
          rcases key c' with ⟨j, cl', g1, g2, _, g4⟩ | ⟨g1, _⟩
          · have hij : j = i := by
              have hil : i < l.length := (List.getElem?_eq_some_iff.1 h1).1
              have hjl : j < l.length := (List.getElem?_eq_some_iff.1 g1).1
              obtain ⟨a, ha⟩ := Int.dvd_of_emod_eq_zero h
              obtain ⟨b, hb⟩ := Int.dvd_of_emod_eq_zero g4
              have e : (j : Int) - i = l.length * (a - b) := by rw [mul_sub]; omega
              rcases lt_trichotomy (a - b) 0 with h0 | h0 | h0
              · have : (l.length : Int) * (a - b) ≤ (l.length : Int) * (-1) := Int.mul_le_mul_of_nonneg_left (by omega) (by omega)
                omega
              · rw [h0] at e; omega
              · have : (l.length : Int) * 1 ≤ (l.length : Int) * (a - b) := Int.mul_le_mul_of_nonneg_left (by omega) (by omega)
                omega
            subst hij
            rw [h1] at g1
            rw [g2, ← Option.some.inj g1]; rfl
          · rw [g1]; rfl
        · rfl
      · intro c' hc'
        rw [ClusterPool.getBonds, ClusterPool.getBonds, ← hl]
        show (pyGetI (l.set i _) c' >>= _) = _
        rw [get_set i cl _ c' h1, if_neg]
        intro h
        rw [← hl] at hc'
        apply hc'
        rw [show c' - c = (c' - i) - (c - i) by ring, Int.sub_emod, h, h4]; simp
    · rw [h1] at ho; cases ho
  · rintro ⟨e, he⟩
    rw [ClusterPool.getBonds, ← hl] at he
    rcases key c with ⟨i, cl, h1, h2, _⟩ | ⟨_, h2⟩
    · rw [h2] at he; cases he
    · rw [ClusterPool.addBonds, ← hl, h2]; rfl

example : (ClusterPool.addBonds ⟨[⟨[], [1], 0, 0⟩, ⟨[], [2], 1, 1⟩], 2⟩ (-1) [7]).isOk = true := by decide

/-- C82: `get_nn_count()` reports the counter of L1 first and that of L2 second: (4, 4) on a new or reset site; `reduce_1st_nn` lowers the first
number and `reduce_2st_directional_nn` the second, down to 0; `is_removable(1)` and `is_removable(2)` tell which is 0. -/
theorem C82_nn_count (s : Site) : (∀ row col id, (Site.new row col id).getNnCount = (4, 4)) ∧ s.reset.getNnCount = (4, 4) ∧
    (∀ a b : Nat, s.getNnCount = ((a : Int), (b : Int)) →
      (∃ s1, s.reduceNn1 = .ok s1 ∧ s1.getNnCount = (((a - 1 : Nat) : Int), (b : Int))) ∧ (∃ s2, s.reduceNn2 = .ok s2 ∧ s2.getNnCount = ((a : Int), ((b - 1 : Nat) : Int)))) ∧
    (s.isRemovable 1 = true ↔ s.getNnCount.1 = 0) ∧ (s.isRemovable 2 = true ↔ s.getNnCount.2 = 0) := by
  refine ⟨fun _ _ _ => rfl, rfl, fun a b h => ?_, by simp [Site.isRemovable, Site.getNnCount], by simp [Site.isRemovable, Site.getNnCount]⟩
  have h1 : s.nn1 = a := congrArg Prod.fst h
  have h2 : s.nn2 = b := congrArg Prod.snd h
  constructor
  · unfold Site.reduceNn1
    split
    · refine ⟨s, ?_, ?_⟩
      · rw [h1]; simp [pyAssert]
      · rw [h]; congr 1; omega
    · exact ⟨_, rfl, by simp only [Site.getNnCount, h1, h2]; congr 1; omega⟩
  · unfold Site.reduceNn2
    split
    · refine ⟨s, ?_, ?_⟩
      · rw [h2]; simp [pyAssert]
      · rw [h]; congr 1; omega
    · exact ⟨_, rfl, by simp only [Site.getNnCount, h1, h2]; congr 1; omega⟩

/-- C82: the cluster looked up with the gid of an occupied site lists exactly the sites connected to it and the bonds in the component of its
bonds, each once, and its description shows the id, the gid and the two numbers. -/
theorem C82_cluster_of_site (h : Reach env v L S) {s : Nat} (hs : S.Occ s) : ∃ g cl, S.lat.getSiteGid s = .ok g ∧
    S.pool.getCluster g = .ok ([], some cl) ∧ cl.siteIds.Nodup ∧ cl.bondIds.Nodup ∧
    (∀ t, t ∈ cl.siteIds ↔ S.Occ t ∧ SiteConn L S.Occ s t) ∧
    (∀ b, b ∈ cl.bondIds ↔ b < 2 * (L * L) ∧ BondConn L S.Occ (bondAt L s .right) b) ∧
    numbers cl.str = [g, g, cl.siteIds.length, cl.bondIds.length] := by
  have hconn := fun t (ht : S.Occ t) => C07_same_gid_iff_connected h hs ht
  obtain ⟨_, A, M, hA⟩ := h.sim
  have C := hA.inv.core
  have hs' := (M.occ_iff s).1 hs
  have hb := bondAt_lt hs'.1 .right
  obtain ⟨h0, h1⟩ := C.bgr _ hb
  have hbs := C.inc s .right hs'
  rw [hbs] at h0 h1
  have hne : A.P.cb (A.V.sg s) ≠ [] := List.ne_nil_of_mem ((C.memb _ h0 h1 _).2 ⟨hb, hbs⟩)
  refine ⟨_, _, M.siteGid hs'.1, M.getCluster h0 h1, C.nds _ h0 h1, C.ndb _ h0 h1, fun t => ?_, fun b => ?_, ?_⟩
  · show t ∈ A.P.cs (A.V.sg s) ↔ _
    rw [C.mems _ h0 h1]
    constructor
    · rintro ⟨ht, hg⟩
      have hto : S.Occ t := (M.occ_iff t).2 ⟨ht, by rw [hg]; exact h0⟩
      exact ⟨hto, (hconn t hto).1 (by rw [M.siteGid hs'.1, M.siteGid ht, hg])⟩
    · rintro ⟨hto, hc⟩
      have ht := ((M.occ_iff t).1 hto).1
      have := (hconn t hto).2 hc
      rw [M.siteGid hs'.1, M.siteGid ht] at this
      exact ⟨ht, (Except.ok.inj this).symm⟩
  · show b ∈ A.P.cb (A.V.sg s) ↔ _
    rw [C.memb _ h0 h1, M.occ_eq]
    constructor
    · rintro ⟨hb', hg⟩
      exact ⟨hb', (C.conn _ _ hb hb').1 (by rw [hbs, hg])⟩
    · rintro ⟨hb', hc⟩
      refine ⟨hb', ?_⟩
      rw [← (C.conn _ _ hb hb').2 hc, hbs]
  · have e1 := C.cgok _ h0 h1 hne
    have e2 := C.ciok _ h0 h1 hne
    show numbers (OneCluster.str _) = _
    rw [C82_cluster_text, e1, e2]

/-! ### Lookups by index -/

/-- C82: `get_site_gid_by_index` for every pair of ints.  Only the number `row * L + column` matters, so that a column outside of the lattice
reads the site of another row and nothing is reduced modulo `L`; negative numbers count from the end, and outside of `-L²..L²-1` the call raises
IndexError. -/
theorem C82_by_index (h : Reach env v L S) (r c : Int) :
    (0 ≤ r * L + c → r * L + c < (L * L : Nat) → S.lat.getSiteGidByIndex ⟨r, c⟩ = S.lat.getSiteGid (r * L + c).toNat) ∧
    (r * L + c < 0 → -((L * L : Nat) : Int) ≤ r * L + c →
      S.lat.getSiteGidByIndex ⟨r, c⟩ = S.lat.getSiteGid ((L * L : Nat) + (r * L + c)).toNat) ∧
    ((L * L : Nat) ≤ r * L + c ∨ r * L + c < -((L * L : Nat) : Int) → S.lat.getSiteGidByIndex ⟨r, c⟩ = .error .indexError) := by
  obtain ⟨_, A, M, hA⟩ := h.sim
  have hl : S.lat.sites.length = L * L := by rw [M.lat]; simp [mkLat]
  have hn : S.lat.length = L := by rw [M.lat]; rfl
  refine ⟨fun h0 h1 => ?_, fun h0 h1 => ?_, fun hc => ?_⟩
  · rw [Lattice.getSiteGidByIndex, hn]
    show (pyGetI S.lat.sites (r * L + c) >>= _) = _
    rw [pyGetI, if_pos h0]; rfl
  · rw [Lattice.getSiteGidByIndex, hn]
    show (pyGetI S.lat.sites (r * L + c) >>= _) = _
    rw [pyGetI, if_neg (by omega), hl, if_pos h1]; rfl
  · rw [Lattice.getSiteGidByIndex, hn]
    show (pyGetI S.lat.sites (r * L + c) >>= _) = _
    rcases hc with hc | hc
    · rw [pyGetI, if_pos (by omega), pyGet, List.getElem?_eq_none (by rw [hl]; omega)]; rfl
    · rw [pyGetI, if_neg (by omega), hl, if_neg (by omega)]; rfl

/-- C82: `get_site_id_list()` and `get_bond_id_list()` list every id once, in order. -/
theorem C82_id_lists (h : Reach env v L S) : S.lat.siteIdList = List.range (L * L) ∧ S.lat.bondIdList = List.range (2 * (L * L)) := by
  obtain ⟨_, A, M, hA⟩ := h.sim
  rw [M.lat]
  refine ⟨?_, ?_⟩
  · show List.range (L ^ 2) = _
    rw [Nat.pow_two]
  · show List.range (2 * L ^ 2) = _
    rw [Nat.pow_two]

/-! ### `get_site_gids` -/

/-- C82: `get_site_gids(ids)` returns every gid of the listed sites once and prints one line for every listed site, with its id and its gid. -/
theorem C82_site_gids (h : Reach env v L S) {ids : List Nat} (hi : ∀ s ∈ ids, s < L * L) : ∃ text gs, S.getSiteGids env ids = .ok (text, gs) ∧
    gs.Nodup ∧ (∀ g, g ∈ gs ↔ ∃ s ∈ ids, S.lat.getSiteGid s = .ok g) ∧
    ∃ f : Nat → Int, (∀ s ∈ ids, S.lat.getSiteGid s = .ok (f s)) ∧ numbers text = ids.flatMap fun s : Nat => [(s : Int), f s] := by
  obtain ⟨_, A, M, hA⟩ := h.sim
  refine ⟨(ids.zip (ids.map A.V.sg)).flatMap fun p => siteGidLine p.1 p.2, env.set.iter (ids.map A.V.sg), ?_, env.set.iter_nodup _, ?_, A.V.sg,
    fun s hs => M.siteGid (hi s hs), ?_⟩
  · rw [Perc.getSiteGids, mapM_ok S.lat.getSiteGid A.V.sg ids fun s hs => M.siteGid (hi s hs)]; rfl
  · intro g
    rw [env.set.iter_mem, List.mem_map]
    constructor
    · rintro ⟨s, hs, rfl⟩; exact ⟨s, hs, M.siteGid (hi s hs)⟩
    · rintro ⟨s, hs, e⟩; rw [M.siteGid (hi s hs)] at e; exact ⟨s, hs, Except.ok.inj e⟩
  · have hz : ids.zip (ids.map A.V.sg) = ids.map fun s => (s, A.V.sg s) := by
      clear hi
      induction ids with
      | nil => rfl
      | cons a l ih => simp [ih]
    rw [hz, List.flatMap_map]
    refine (Shows.flatMap ids fun s _ => ?_).numbers
    have := (Shows.skip (w := "site  ".toList) (by decide)).append ((Shows.int (s : Int) (c := ' ') (by decide)).append
      ((Shows.skip (w := " gid =>  ".toList) (by decide)).append (Shows.int (A.V.sg s) (c := '\n') (by decide))))
    simpa [siteGidLine, println] using this

/-- C82: for occupied sites the number of returned gids is the number of clusters the sites belong to: if `reps` are pairwise unconnected sites of
the list and every site of the list is connected to one of them, there are as many gids as `reps`. -/
theorem C82_site_gids_count (h : Reach env v L S) {ids reps : List Nat} (hi : ∀ s ∈ ids, S.Occ s) (hr : ∀ t ∈ reps, t ∈ ids)
    (hp : reps.Pairwise fun s t => ¬ SiteConn L S.Occ s t) (hc : ∀ s ∈ ids, ∃ t ∈ reps, SiteConn L S.Occ s t) {text : Text} {gs : List Int}
    (e : S.getSiteGids env ids = .ok (text, gs)) : gs.length = reps.length := by
  have hlt : ∀ s ∈ ids, s < L * L := fun s hs => by
    obtain ⟨_, A, M, hA⟩ := h.sim
    exact ((M.occ_iff s).1 (hi s hs)).1
  obtain ⟨text', gs', e', hn, hm, f, hf, _⟩ := C82_site_gids h hlt
  rw [e] at e'
  obtain ⟨rfl, rfl⟩ := Prod.mk.inj (Except.ok.inj e')
  have hsame : ∀ s ∈ ids, ∀ t ∈ ids, (f s = f t ↔ SiteConn L S.Occ s t) := fun s hs t ht => by
    rw [← C07_same_gid_iff_connected h (hi s hs) (hi t ht), hf s hs, hf t ht]
    exact ⟨congrArg _, Except.ok.inj⟩
  have hmap : (reps.map f).Nodup := by
    rw [List.Nodup, List.pairwise_map]
    refine hp.imp_of_mem fun {a b} ha hb hab e => hab ((hsame a (hr a ha) b (hr b hb)).1 e)
  have : gs.Perm (reps.map f) := by
    refine (List.perm_ext_iff_of_nodup hn hmap).2 fun g => ?_
    rw [hm, List.mem_map]
    constructor
    · rintro ⟨s, hs, eg⟩
      obtain ⟨t, ht, hst⟩ := hc s hs
      refine ⟨t, ht, ?_⟩
      rw [hf s hs] at eg
      rw [← Except.ok.inj eg]
      exact ((hsame s hs t (hr t ht)).2 hst).symm
    · rintro ⟨t, ht, rfl⟩
      exact ⟨t, hr t ht, hf t (hr t ht)⟩
  rw [this.length_eq, List.length_map]

/-! ### `get_change_in_relative_index` -/

/-- C82: for `L ≥ 3` the change from the relative index of a site to the one `get_relative_index` computes for its neighbour is the unit step
towards that neighbour, also across the edges of the lattice. -/
theorem C82_change (hL : 3 ≤ L) (h : Reach env v L S) {s : Nat} (hs : s < L * L) (d : Dir) : ∃ st i, S.lat.getSite s = .ok st ∧
    getRelativeIndex S.lat s (nbr L s d) = .ok i ∧ ((getChangeInRelativeIndex st.rel i).c1, (getChangeInRelativeIndex st.rel i).c2) = d.vec := by
  obtain ⟨_, A, M, hA⟩ := h.sim
  rw [M.lat]
  refine ⟨_, _, getSite_mk hs, getRelativeIndex_mk hs (nbr_lt hs d), ?_⟩
  rw [← cdiff_nbr hL hs d]
  show ((A.V.rel s).c1 + (cdiff L s (nbr L s d)).c1 - (A.V.rel s).c1, (A.V.rel s).c2 + (cdiff L s (nbr L s d)).c2 - (A.V.rel s).c2) = _
  rw [add_sub_cancel_left, add_sub_cancel_left]; rfl

/-! ### `BondPercolation` and `mTest_neighbors` -/

/-- C82: `BondPercolation(length=L)` can be constructed for every `L`, but its cluster pool is empty: the view reports no clusters, no bond
belongs to one, `get_cluster` returns None for every id from 0 on, and every other lookup raises IndexError. -/
theorem C82_bond_percolation (L : Nat) : ∃ lat pool, bondPercolation L = .ok (lat, pool) ∧ LatticeOf L lat ∧ pool.view = 0 ∧
    (∀ b < 2 * (L * L), lat.getBondGid b = .ok (-1)) ∧ (∀ s < L * L, lat.getSiteGid s = .ok (-1)) ∧
    (∀ c : Int, 0 ≤ c → pool.getCluster c = .ok (println "Cluster does not exists".toList, none)) ∧
    (∀ c : Int, c < 0 → pool.getCluster c = .error .indexError) ∧
    ∀ c : Int, pool.getBonds c = .error .indexError ∧ pool.getSites c = .error .indexError ∧ pool.bondCount c = .error .indexError := by
  refine ⟨idealLattice L, .empty, ?_, .fresh (Lattice.new_eq L), rfl, ?_, ?_, ?_, ?_, ?_⟩
  · rw [bondPercolation, Lattice.new_eq]; rfl
  · intro b hb; rw [idealLattice_eq, getBondGid_mk hb]; rfl
  · intro s hs; rw [idealLattice_eq, getSiteGid_mk hs]; rfl
  · intro c hc; exact if_pos hc
  · intro c hc
    have h1 : ¬ c ≥ ((ClusterPool.empty.clusters.length : Nat) : Int) := show ¬ c ≥ ((0 : Nat) : Int) by omega
    have h2 : ¬ -((ClusterPool.empty.clusters.length : Nat) : Int) ≤ c := show ¬ -((0 : Nat) : Int) ≤ c by omega
    rw [ClusterPool.getCluster, if_neg h1, pyGetI, if_neg (by omega), if_neg h2]
    rfl
  · intro c
    have : pyGetI ([] : List OneCluster) c = .error .indexError := by
      rw [pyGetI]
      split
      · rfl
      · have h2 : ¬ -((([] : List OneCluster).length : Nat) : Int) ≤ c := show ¬ -((0 : Nat) : Int) ≤ c by omega
        rw [if_neg h2]
    exact ⟨by rw [ClusterPool.getBonds]; show (pyGetI [] c >>= _) = _; rw [this]; rfl,
      by rw [ClusterPool.getSites]; show (pyGetI [] c >>= _) = _; rw [this]; rfl,
      by rw [ClusterPool.bondCount]; show (pyGetI [] c >>= _) = _; rw [this]; rfl⟩

/-- The text of `view` for any lattice. -/
theorem view_mk (V : LV) (fmt : Int) : (mkLat L V).view fmt = .ok (viewTextOf L V fmt) := by
  have er : ∀ r ∈ List.range L, (mkLat L V).viewRow fmt r = .ok (println (strListText ((List.range L).map (cellText L V fmt r))) ++
      println (strListText ((List.range L).map (cellVText L V fmt r))) ++ (mkLat L V).rowSeparator 34) := by
    intro r hr
    rw [Lattice.viewRow, getRowStr_mk V fmt (List.mem_range.1 hr)]
    show ((mkLat L V).getRowVStr r fmt >>= _) = _
    rw [getRowVStr_mk V fmt (List.mem_range.1 hr)]; rfl
  rw [Lattice.view]
  show (do let rows ← (List.range L).mapM _; return _) = _
  rw [mapM_ok _ _ _ er]; rfl

/-- C82: `mTest_neighbors` never raises, for any length in place of 5; it prints the three views of a new lattice, then all sites, then all
bonds. -/
theorem C82_mtest_neighbors (L : Nat) : ∃ lat t0 t1 t2, Lattice.new L = .ok lat ∧ lat.view 0 = .ok t0 ∧ lat.view 1 = .ok t1 ∧ lat.view 2 = .ok t2 ∧
    mTestNeighbors L = .ok (t0 ++ t1 ++ t2 ++ lat.listAllSites ++ lat.listAllBonds) := by
  rw [mTestNeighbors, Lattice.new_eq, idealLattice_eq]
  refine ⟨_, _, _, _, rfl, view_mk _ 0, view_mk _ 1, view_mk _ 2, ?_⟩
  show ((mkLat L _).view 0 >>= fun t0 => (mkLat L _).view 1 >>= fun t1 => (mkLat L _).view 2 >>= _) = _
  rw [view_mk, view_mk, view_mk]
  rfl

/-- Three occupied sites in two clusters; the gids of the neighbours, and a cluster that was merged away. -/
example : ∃ S : Perc Unit, Reach demoEnv .l0 4 S ∧ S.Occ 0 ∧ S.Occ 1 ∧ S.Occ 10 ∧ SiteConn 4 S.Occ 0 1 ∧ ¬ SiteConn 4 S.Occ 0 10 ∧
    (∃ text, S.getSiteGids demoEnv [0, 1, 10] = .ok (text, [28, 22]) ∧ numbers text = [0, 28, 1, 28, 10, 22]) ∧
    S.pool.getCluster 0 = .ok ([], some ⟨[], [], -1, -1⟩) ∧ S.pool.getCluster (-4) = S.pool.getCluster 28 ∧
    S.lat.getSiteGidByIndex ⟨0, 10⟩ = .ok 22 := by
  obtain ⟨S, h, hp⟩ := checkOps_reach (env := demoEnv) (v := .l0) (L := 4) (ops := placeInOrder [0, 10, 1] 3)
    (p := fun S => S.occB 0 && (S.occB 1 && (S.occB 10 && (isOk (S.lat.getSiteGid 0) 28 && (isOk (S.lat.getSiteGid 1) 28 &&
      (isOk (S.lat.getSiteGid 10) 22 && (isOk (S.pool.getCluster 0) ([], some ⟨[], [], -1, -1⟩) && (isOk (S.lat.getSiteGidByIndex ⟨0, 10⟩) 22 &&
        match S.getSiteGids demoEnv [0, 1, 10] with
        | .ok (text, gs) => decide (gs = [28, 22]) && decide (numbers text = [0, 28, 1, 28, 10, 22])
        | .error _ => false)))))))) (by decide +kernel)
  simp only [Bool.and_eq_true, isOk_iff, Perc.occB_iff] at hp
  obtain ⟨h1, h2, h3, h4, h5, h6, h7, h8, h9⟩ := hp
  refine ⟨S, h, h1, h2, h3, ?_, ?_, ?_, h7, ?_, h8⟩
  · rw [← C07_same_gid_iff_connected h h1 h2, h4, h5]
  · rw [← C07_same_gid_iff_connected h h1 h3, h4, h6]
    exact fun e => absurd (Except.ok.inj e) (by decide)
  · split at h9
    · rename_i text gs e
      simp only [Bool.and_eq_true, decide_eq_true_eq] at h9
      obtain ⟨rfl, h9⟩ := h9
      exact ⟨text, e, h9⟩
    · cases h9
  · exact (C82_get_cluster h (-4)).2.1 (by decide) (by decide)

/-! ### `get_connected_sites` -/

/-- C82: `get_connected_sites(site, bonds)` lists the other ends of the bonds of the site, one for each bond and in the order of the bonds.
A bond that exists but does not touch the site raises ValueError, a missing bond raises IndexError. -/
theorem C82_connected_sites (h : Reach env v L S) {s : Nat} (hs : s < L * L) :
    (∀ bs : List Nat, (∀ b ∈ bs, b < 2 * (L * L) ∧ Incident L s b) → ∃ ts, S.getConnectedSites s bs = .ok ts ∧
      List.Forall₂ (fun b t => bondEnds L b = (s, t) ∨ bondEnds L b = (t, s)) bs ts) ∧
    (∀ (bs cs : List Nat) (b : Nat), (∀ b ∈ bs, b < 2 * (L * L) ∧ Incident L s b) →
      (b < 2 * (L * L) → ¬ Incident L s b → S.getConnectedSites s (bs ++ b :: cs) = .error .valueError) ∧
      (2 * (L * L) ≤ b → S.getConnectedSites s (bs ++ b :: cs) = .error .indexError)) := by
  obtain ⟨_, A, M, hA⟩ := h.sim
  have key : ∀ bs cs : List Nat, (∀ b ∈ bs, b < 2 * (L * L) ∧ Incident L s b) → ∃ ts,
      (List.mapM ((mkLat L A.V).otherEnd s) (bs ++ cs) = (List.mapM ((mkLat L A.V).otherEnd s) cs).map (ts ++ ·)) ∧
      List.Forall₂ (fun b t => bondEnds L b = (s, t) ∨ bondEnds L b = (t, s)) bs ts := by
    intro bs cs
    induction bs with
    | nil => intro _; exact ⟨[], by cases h : List.mapM ((mkLat L A.V).otherEnd s) cs <;> simp [h, Except.map], .nil⟩
    | cons b bs ih =>
      intro hb
      obtain ⟨ts, e, f⟩ := ih fun b h => hb b (List.mem_cons_of_mem _ h)
      obtain ⟨hb1, hb2⟩ := hb b (List.mem_cons_self ..)
      obtain ⟨_, d, rfl⟩ := (incident_iff hb1).1 hb2
      refine ⟨nbr L s d :: ts, ?_, .cons (bondEnds_bondAt hs d) f⟩
      rw [List.cons_append, List.mapM_cons, otherEnd_mk hs]
      show ((List.mapM ((mkLat L A.V).otherEnd s) (bs ++ cs) : Py (List Nat)) >>= fun r => pure (nbr L s d :: r)) = _
      rw [e]
      cases List.mapM ((mkLat L A.V).otherEnd s) cs <;> rfl
  rw [show S.getConnectedSites s = List.mapM ((mkLat L A.V).otherEnd s) from by
    funext bs; rw [Perc.getConnectedSites, M.lat]]
  refine ⟨fun bs hb => ?_, fun bs cs b hb => ⟨fun h1 h2 => ?_, fun h1 => ?_⟩⟩
  · obtain ⟨ts, e, f⟩ := key bs [] hb
    rw [List.append_nil] at e
    exact ⟨ts, by rw [e]; simp [Except.map, pure, Except.pure], f⟩
  · obtain ⟨ts, e, _⟩ := key bs (b :: cs) hb
    rw [e, List.mapM_cons]
    have : (mkLat L A.V).otherEnd s b = .error .valueError := by
      simp only [Lattice.otherEnd, getNeighborSites_mk h1]
      show (pyRemove (bondSites L b) s >>= _) = _
      rw [pyRemove, if_neg (by rwa [mem_bondSites])]; rfl
    rw [this]; rfl
  · obtain ⟨ts, e, _⟩ := key bs (b :: cs) hb
    rw [e, List.mapM_cons]
    have : (mkLat L A.V).otherEnd s b = .error .indexError := by
      simp only [Lattice.otherEnd, Lattice.getNeighborSites, getBond_mk_error h1]; rfl
    rw [this]; rfl

/-- A bond of the site and one that is not. -/
example : Incident 3 4 4 ∧ Incident 3 4 3 ∧ ¬ Incident 3 4 0 := by unfold Incident; decide

/-! ### Ends of a bond and bonds of a site -/

/-- A bond after calls of `add_connected_site`. -/
def Bond.calls (b : Bond) (as : List IdArg) : Bond := as.foldl (fun b a => (b.addConnected a).2) b

/-- A site after calls of `add_connecting_bond`. -/
def Site.calls (s : Site) (as : List IdArg) : Site := as.foldl (fun s a => (s.addConnecting a).2) s

/-- C82: `add_connected_site` called with single ids on a new bond keeps the first two of them; calls with lists can bring a bond to three
ends, although it says that a bond connects only two, but never to more. -/
theorem C82_bond_ends (r c t i : Nat) :
    (∀ ids : List Nat, ((Bond.new r c t i).calls (ids.map .one)).sites = ids.take 2) ∧
    (∀ as, ((Bond.new r c t i).calls as).sites.length ≤ 3) ∧
    ∀ a b d, ((Bond.new r c t i).calls [.one a, .many [b, d]]).sites = [a, b, d] := by
  have full : ∀ (as : List IdArg) (b : Bond), 2 ≤ b.sites.length → b.calls as = b := by
    intro as
    induction as with
    | nil => intro b _; rfl
    | cons a as ih =>
      intro b hb
      have e : (b.addConnected a).2 = b := by
        cases a with
        | one s => simp only [Bond.addConnected, Bond.addConnectedSite, if_pos hb]
        | many ss => simp only [Bond.addConnected, if_pos hb]
      show Bond.calls (b.addConnected a).2 as = b
      rw [e, ih b hb]
  have short : ∀ (as : List IdArg) (b : Bond), b.sites.length < 2 → (b.calls as).sites.length ≤ 3 := by
    intro as
    induction as with
    | nil => intro b hb; show b.sites.length ≤ 3; omega
    | cons a as ih =>
      intro b hb
      show (Bond.calls (b.addConnected a).2 as).sites.length ≤ 3
      have e : (b.addConnected a).2.sites.length ≤ 3 := by
        cases a with
        | one s => simp only [Bond.addConnected, Bond.addConnectedSite, if_neg (Nat.not_le.2 hb), List.length_append, List.length_singleton]; omega
        | many ss =>
          simp only [Bond.addConnected, if_neg (Nat.not_le.2 hb)]
          split
          · next h => simp only [List.length_append, h]; omega
          · show b.sites.length ≤ 3; omega
      by_cases h2 : 2 ≤ (b.addConnected a).2.sites.length
      · rw [full as _ h2]; exact e
      · exact ih _ (by omega)
  refine ⟨fun ids => ?_, fun as => short as _ (by decide : (0 : Nat) < 2), fun _ _ _ => rfl⟩
  match ids with
  | [] => rfl
  | [_] => rfl
  | x :: y :: ids =>
    show (Bond.calls { Bond.new r c t i with sites := [x, y] } (ids.map .one)).sites = [x, y]
    rw [full (ids.map .one) { Bond.new r c t i with sites := [x, y] } (by simp)]

/-- C82: `add_connecting_bond` called with single ids on a new site keeps the first four of them; calls with lists can bring a site to seven
bonds, never to more. -/
theorem C82_site_bonds (r c i : Nat) :
    (∀ ids : List Nat, ((Site.new r c i).calls (ids.map .one)).bonds = ids.take 4) ∧
    (∀ as, ((Site.new r c i).calls as).bonds.length ≤ 7) ∧
    ∀ a b d w x y z, ((Site.new r c i).calls [.one a, .one b, .one d, .many [w, x, y, z]]).bonds = [a, b, d, w, x, y, z] := by
  have full : ∀ (as : List IdArg) (s : Site), 4 ≤ s.bonds.length → s.calls as = s := by
    intro as
    induction as with
    | nil => intro b _; rfl
    | cons a as ih =>
      intro s hs
      have e : (s.addConnecting a).2 = s := by
        cases a with
        | one b => simp only [Site.addConnecting, if_pos hs]
        | many bs => simp only [Site.addConnecting, Site.addConnectingBonds, if_pos hs]
      show Site.calls (s.addConnecting a).2 as = s
      rw [e, ih s hs]
  have short : ∀ (as : List IdArg) (s : Site), s.bonds.length < 4 → (s.calls as).bonds.length ≤ 7 := by
    intro as
    induction as with
    | nil => intro s hs; show s.bonds.length ≤ 7; omega
    | cons a as ih =>
      intro s hs
      show (Site.calls (s.addConnecting a).2 as).bonds.length ≤ 7
      have e : (s.addConnecting a).2.bonds.length ≤ 7 := by
        cases a with
        | one b => simp only [Site.addConnecting, if_neg (Nat.not_le.2 hs), List.length_append, List.length_singleton]; omega
        | many bs =>
          simp only [Site.addConnecting, Site.addConnectingBonds, if_neg (Nat.not_le.2 hs)]
          split
          · next h => simp only [List.length_append, h]; omega
          · show s.bonds.length ≤ 7; omega
      by_cases h2 : 4 ≤ (s.addConnecting a).2.bonds.length
      · rw [full as _ h2]; exact e
      · exact ih _ (by omega)
  refine ⟨fun ids => ?_, fun as => short as _ (by decide : (0 : Nat) < 4), fun _ _ _ _ _ _ _ => rfl⟩
  match ids with
  | [] => rfl
  | [_] => rfl
  | [_, _] => rfl
  | [_, _, _] => rfl
  | w :: x :: y :: z :: ids =>
    show (Site.calls { Site.new r c i with bonds := [w, x, y, z] } (ids.map .one)).bonds = [w, x, y, z]
    rw [full (ids.map .one) { Site.new r c i with bonds := [w, x, y, z] } (by simp)]

/-- The ids an argument stands for if lists must have `n` entries. -/
def IdArg.ids (n : Nat) : IdArg → List Nat
  | .one i => [i]
  | .many is => if is.length = n then is else []

theorem fill_spec {σ : Type} (n : Nat) (get : σ → List Nat) (call : σ → IdArg → σ)
    (hc : ∀ s a, get (call s a) = if n ≤ (get s).length then get s else get s ++ a.ids n) (as : List IdArg) :
    ∀ s, ∃ k, get (as.foldl call s) = get s ++ (as.take k).flatMap (IdArg.ids n) ∧
      (k < as.length → n ≤ (get s ++ (as.take k).flatMap (IdArg.ids n)).length) ∧
      ∀ j < k, (get s ++ (as.take j).flatMap (IdArg.ids n)).length < n := by
  induction as with
  | nil => intro s; exact ⟨0, by simp, by simp, by simp⟩
  | cons a as ih =>
    intro s
    by_cases h : n ≤ (get s).length
    · refine ⟨0, ?_, fun _ => by simpa using h, by simp⟩
      have stay : ∀ (as : List IdArg) (s : σ), n ≤ (get s).length → get (as.foldl call s) = get s := by
        intro as
        induction as with
        | nil => intro s _; rfl
        | cons a as ih =>
          intro s h
          have e : get (call s a) = get s := by rw [hc, if_pos h]
          rw [List.foldl_cons, ih _ (by rw [e]; exact h), e]
      rw [stay _ _ h]
      simp
    · have e : get (call s a) = get s ++ a.ids n := by rw [hc, if_neg h]
      obtain ⟨k, h1, h2, h3⟩ := ih (call s a)
      rw [e] at h1 h2 h3
      refine ⟨k + 1, ?_, fun hk => ?_, fun j hj => ?_⟩
      · rw [List.foldl_cons, h1, List.take_succ_cons, List.flatMap_cons, List.append_assoc]
      · rw [List.take_succ_cons, List.flatMap_cons, ← List.append_assoc]
        exact h2 (by simpa using hk)
      · cases j with
        | zero => simpa using h
        | succ j =>
          rw [List.take_succ_cons, List.flatMap_cons, ← List.append_assoc]
          exact h3 j (by omega)

/-- C82: which ids any sequence of calls leaves: those of the calls up to the first moment at which the bond has at least two ends (the site at
least four bonds); lists of another length count for nothing. -/
theorem C82_filled (r c t i : Nat) (as : List IdArg) :
    (∃ k, ((Bond.new r c t i).calls as).sites = (as.take k).flatMap (IdArg.ids 2) ∧
      (k < as.length → 2 ≤ ((as.take k).flatMap (IdArg.ids 2)).length) ∧ ∀ j < k, ((as.take j).flatMap (IdArg.ids 2)).length < 2) ∧
    ∃ k, ((Site.new r c i).calls as).bonds = (as.take k).flatMap (IdArg.ids 4) ∧
      (k < as.length → 4 ≤ ((as.take k).flatMap (IdArg.ids 4)).length) ∧ ∀ j < k, ((as.take j).flatMap (IdArg.ids 4)).length < 4 := by
  constructor
  · obtain ⟨k, h⟩ := fill_spec 2 Bond.sites (fun b a => (b.addConnected a).2) (by
      intro b a
      cases a with
      | one s => simp only [Bond.addConnected, Bond.addConnectedSite, IdArg.ids]; split <;> rfl
      | many ss =>
        simp only [Bond.addConnected, IdArg.ids]
        split
        · rfl
        · split
          · rfl
          · exact (List.append_nil _).symm) as (Bond.new r c t i)
    exact ⟨k, h⟩
  · obtain ⟨k, h⟩ := fill_spec 4 Site.bonds (fun b a => (b.addConnecting a).2) (by
      intro b a
      cases a with
      | one s => simp only [Site.addConnecting, IdArg.ids]; split <;> rfl
      | many ss =>
        simp only [Site.addConnecting, Site.addConnectingBonds, IdArg.ids]
        split
        · rfl
        · split
          · rfl
          · exact (List.append_nil _).symm) as (Site.new r c i)
    exact ⟨k, h⟩

example : ((Bond.new 0 0 0 0).calls [.many [7], .one 3, .many [1, 2, 4], .many [5, 6], .one 9]).sites = [3, 5, 6] := by decide +kernel

/-- C82: on the bonds and sites of a lattice the two methods only print that there is no room, after any history. -/
theorem C82_ends_full (h : Reach env v L S) (a : IdArg) :
    (∀ b bd, S.lat.getBond b = .ok bd → bd.addConnected a = (println "A bond connects only two sites".toList, bd)) ∧
    ∀ s st, S.lat.getSite s = .ok st → st.addConnecting a = (println "A site connects only four bonds".toList, st) := by
  obtain ⟨_, A, M, hA⟩ := h.sim
  rw [M.lat]
  constructor
  · intro b bd e
    by_cases hb : b < 2 * (L * L)
    · rw [getBond_mk hb] at e
      rw [← Except.ok.inj e]
      have h2 : 2 ≤ (mkBond L A.V b).sites.length := by
        show 2 ≤ (bondSites L b).length
        simp [bondSites]
      cases a with
      | one s => simp only [Bond.addConnected, Bond.addConnectedSite, if_pos h2]
      | many ss => simp only [Bond.addConnected, if_pos h2]
    · rw [getBond_mk_error (by omega)] at e; cases e
  · intro s st e
    by_cases hs : s < L * L
    · rw [getSite_mk hs] at e
      rw [← Except.ok.inj e]
      have h4 : 4 ≤ (mkSite L A.V s).bonds.length := by
        show 4 ≤ (idealSite L s).bonds.length
        simp [idealSite]
      cases a with
      | one s => simp only [Site.addConnecting, if_pos h4]
      | many ss => simp only [Site.addConnecting, Site.addConnectingBonds, if_pos h4]
    · rw [getSite_mk_error (by omega)] at e; cases e

end SqPerc
