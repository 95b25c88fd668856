import Verif.Proof.CellsStep
import Verif.Props.Demo
/-
C103: the member lists handed out by the cluster pool.
-/
namespace SqPerc

variable {α : Type} {L : Nat} {env : Env α} {v : Variant} {w w' : Perc α × Cells}

/-! ### The invariant -/

/-- The object is in a reachable state, and the list objects have the values of the model. -/
def CInv (env : Env α) (L : Nat) (w : Perc α × Cells) : Prop := (∃ A, Sim env L w.1 A ∧ AReach env L A) ∧ Stored w.2 w.1.pool

theorem quiet_inv {S S' : Perc α} (h : ∃ A, Sim env L S A ∧ AReach env L A) (hq : Quiet env v S S') :
    (∃ A, Sim env L S' A ∧ AReach env L A) ∧ S'.pool = S.pool := by
  obtain ⟨A, M, hA⟩ := h
  have same : ∀ {T : Perc α} {B : Abs α}, Sim env L T B → AReach env L B → B.P = A.P → (∃ A, Sim env L T A ∧ AReach env L A) ∧ T.pool = S.pool :=
    fun h1 h2 h3 => ⟨⟨_, h1, h2⟩, by rw [h1.pool, M.pool, h3]⟩
  cases hq with
  | detect h =>
    obtain ⟨_, _, _, A', h1, h2, _, _, h3, _⟩ := detectWrapping_steps M hA.inv h
    exact same h2 (hA.steps h1) h3
  | shuffle h => exact same (shuffle_sim M h) hA rfl
  | setIds h => exact same (setCustomIds_sim M h) hA rfl
  | setIndices h => exact same (setCustomIndices_sim M h) hA rfl
  | swapIds h =>
    obtain ⟨ids, rev, rfl⟩ := swapIds_ok h
    exact same (M.aux rfl rfl rfl rfl rfl rfl rfl rfl rfl rfl rfl rfl rfl rfl) hA rfl
  | raised h =>
    rcases placeRaised_steps' M hA.inv h with h | ⟨k, hk, h0, h⟩
    · exact same h hA rfl
    · exact same h (hA.steps (.single (.reselect hk h0))) rfl
  | @swapRaised i j e h =>
    obtain ⟨ids, e⟩ := swapRaised_form S i j
    rw [e]
    exact same (M.aux rfl rfl rfl rfl rfl rfl rfl rfl rfl rfl rfl rfl rfl rfl) hA rfl
  | data fr l1 l2 l3 l4 p => exact same (M.aux rfl rfl rfl rfl rfl rfl rfl rfl rfl rfl rfl rfl rfl rfl) hA rfl
  | write l => exact same (M.aux rfl rfl rfl rfl rfl rfl rfl rfl rfl rfl rfl rfl rfl rfl) hA rfl

theorem placeC_fst {S S' : Perc α} {c c' : Cells} {d : Draw} {b : Bool} (h : S.placeOneSiteC env v c d = .ok (S', c', b)) :
    S.placeOneSite env v d = .ok (S', b) := by
  rw [← placeOneSiteC_fst S c d, h]; rfl

theorem placeC_of {S S' : Perc α} {d : Draw} {b : Bool} (c : Cells) (h : S.placeOneSite env v d = .ok (S', b)) :
    ∃ c', S.placeOneSiteC env v c d = .ok (S', c', b) := by
  rw [← placeOneSiteC_fst S c d] at h
  cases h1 : S.placeOneSiteC env v c d with
  | error e => rw [h1] at h; cases h
  | ok r =>
    rw [h1] at h
    obtain ⟨S1, c1, b1⟩ := r
    cases h
    exact ⟨c1, rfl⟩

theorem CInv.move (I : CInv env L w) (h : CMove env v w w') : CInv env L w' := by
  cases h with
  | step h =>
    cases h with
    | place h =>
      obtain ⟨⟨A, M, hA⟩, H⟩ := I
      obtain ⟨A', h1, h2⟩ := placeOneSite_steps M hA.inv (placeC_fst h)
      exact ⟨⟨A', h2, hA.steps h1⟩, (placeOneSiteC_effect M hA.inv H h).1⟩
    | quiet h =>
      obtain ⟨h1, h2⟩ := quiet_inv I.1 h
      exact ⟨h1, by rw [h2]; exact I.2⟩
  | @reset S S' c draws h =>
    obtain ⟨⟨A, M, hA⟩, H⟩ := I
    have M' := reset_sim M h
    refine ⟨⟨_, M', .init hA.inv.selLt⟩, ?_⟩
    show Stored (c.init S.lat.bondCount) S'.pool
    rw [M'.pool, M.lat, mkLat_bondCount]
    have := Stored.init c (initClusters_mk L)
    rw [mkLat_bondCount] at this
    exact this

theorem CReach.inv (h : CReach env v L w) : CInv env L w := by
  induction h with
  | @new draws S h =>
    obtain ⟨_, _, M⟩ := new_sim h
    refine ⟨⟨_, M, .init (fun _ h => by cases h)⟩, ?_⟩
    show Stored (Cells.init _ S.lat.bondCount) S.pool
    rw [M.pool, M.lat, mkLat_bondCount]
    have := Stored.init ⟨[], []⟩ (initClusters_mk L)
    rw [mkLat_bondCount] at this
    exact this
  | move _ hm ih => exact ih.move hm

theorem CReach.moves (h : CReach env v L w) (hm : Relation.ReflTransGen (CMove env v) w w') : CReach env v L w' := by
  induction hm with
  | refl => exact h
  | tail _ hm ih => exact ih.move hm

/-! ### A list that was handed out -/

/-- The value of the list object `r`, if there is one. -/
def Cells.value (c : Cells) (r : Nat) : Option (List Nat) := c.heap[r]?

/-- What `get_sites(g)` or `get_bonds(g)` shows now. -/
def members (S : Perc α) (kind : Kind) (g : Nat) : Py (List Nat) :=
  match kind with
  | .sites => S.pool.getSites (g : Int)
  | .bonds => S.pool.getBonds (g : Int)

theorem CInv.refs_length (I : CInv env L w) : w.2.refs.length = 2 * (L * L) := by
  obtain ⟨⟨A, M, hA⟩, H⟩ := I
  rw [H.len, M.pool]; simp [mkPool]

theorem CInv.get_lt (I : CInv env L w) {kind : Kind} {g : Nat} (hg : g < 2 * (L * L)) : w.2.get kind g < w.2.heap.length := by
  have := I.2.bound g (by rw [I.refs_length]; exact hg)
  cases kind
  · exact this.1
  · exact this.2

theorem Cells.value_of_lt {c : Cells} {r : Nat} (h : r < c.heap.length) : c.value r = some (c.listAt r) := by
  simp only [Cells.value, Cells.listAt, List.getElem?_eq_getElem h, Option.getD_some]

theorem CInv.members (I : CInv env L w) {kind : Kind} {g : Nat} (hg : g < 2 * (L * L)) :
    SqPerc.members w.1 kind g = .ok (w.2.listAt (w.2.get kind g)) := by
  have hl : g < w.1.pool.clusters.length := by rw [← I.2.len, I.refs_length]; exact hg
  have hget : pyGetI w.1.pool.clusters (g : Int) = .ok w.1.pool.clusters[g] := by
    unfold pyGetI
    rw [if_pos (by omega)]
    unfold pyGet
    simp [hl]
  cases kind with
  | sites =>
    show ClusterPool.getSites _ _ = _
    unfold ClusterPool.getSites
    rw [hget]
    exact congrArg Except.ok (I.2.sites g _ (List.getElem?_eq_getElem hl)).symm
  | bonds =>
    show ClusterPool.getBonds _ _ = _
    unfold ClusterPool.getBonds
    rw [hget]
    exact congrArg Except.ok (I.2.bonds g _ (List.getElem?_eq_getElem hl)).symm

theorem CInv.get_inj (I : CInv env L w) {k1 k2 : Kind} {g1 g2 : Nat} (h1 : g1 < 2 * (L * L)) (h2 : g2 < 2 * (L * L))
    (h : w.2.get k1 g1 = w.2.get k2 g2) : k1 = k2 ∧ g1 = g2 := by
  rw [← I.refs_length] at h1 h2
  cases k1 <;> cases k2
  · exact ⟨rfl, I.2.injS _ h1 _ h2 h⟩
  · exact absurd h (I.2.apart _ h1 _ h2)
  · exact absurd h.symm (I.2.apart _ h2 _ h1)
  · exact ⟨rfl, I.2.injB _ h1 _ h2 h⟩

/-- No cluster refers to the list object `r` any more. -/
def Dead (c : Cells) (r : Nat) : Prop := r < c.heap.length ∧ ∀ kind, ∀ g < c.refs.length, c.get kind g ≠ r

/-- What one step does to the list objects; `R` says that it is a reset. -/
inductive ListEffect (R : Prop) (c c' : Cells) : Prop
  | same : c' = c → ListEffect R c c'
  | placed (i : Nat) (c1 : Cells) : i < c.refs.length → Extends i c c1 → Drop (· ≠ i) c1 c' → ListEffect R c c'
  | init (n : Nat) : R → c' = c.init n → ListEffect R c c'

theorem CInv.effect (I : CInv env L w) (h : CMove env v w w') : ListEffect (∃ draws, w.1.reset env v draws = .ok w'.1) w.2 w'.2 := by
  cases h with
  | step h =>
    cases h with
    | place h =>
      obtain ⟨⟨A, M, hA⟩, H⟩ := I
      obtain ⟨_, e | ⟨i, c1, hi, G, D⟩⟩ := placeOneSiteC_effect M hA.inv H h
      · exact .same e
      · exact .placed i c1 hi G (D.mono fun _ h => h.1)
    | quiet h => exact .same rfl
  | reset h => exact .init _ ⟨_, h⟩ rfl

theorem Extends.get {i : Nat} {c c' : Cells} (h : Extends i c c') (kind : Kind) (g : Nat) : c'.get kind g = c.get kind g := by
  cases kind <;> simp only [Cells.get, h.refsAt]

theorem Drop.get {X : Nat → Prop} {c c' : Cells} (h : Drop X c c') (kind : Kind) {g : Nat} (hg : g < c.refs.length) :
    c'.get kind g = c.get kind g ∨ (X g ∧ c.heap.length ≤ c'.get kind g ∧ c'.listAt (c'.get kind g) = []) := by
  rcases h.fresh g hg with e | ⟨x, f1, f2, f3, f4, f5, f6⟩
  · left; cases kind <;> simp only [Cells.get, e]
  · right
    cases kind
    · exact ⟨x, f1, f5⟩
    · exact ⟨x, f2, f6⟩

theorem get_init {c : Cells} {n g : Nat} (kind : Kind) (hg : g < (c.init n).refs.length) : c.heap.length ≤ (c.init n).get kind g := by
  have := (init_old c n).2.2 g hg
  cases kind
  · exact this.1
  · exact this.2

theorem Dead.effect {R : Prop} {c c' : Cells} {r : Nat} (h : Dead c r) (e : ListEffect R c c') : Dead c' r ∧ c'.listAt r = c.listAt r := by
  obtain ⟨hr, hd⟩ := h
  cases e with
  | init n _ e =>
    subst e
    obtain ⟨h1, h2, _⟩ := init_old c n
    exact ⟨⟨by omega, fun kind g hg => by have := get_init kind hg; omega⟩, h2 r hr⟩
  | same e => rw [e]; exact ⟨⟨hr, hd⟩, rfl⟩
  | placed i c1 hi G D =>
    have hr1 : r < c1.heap.length := by rw [G.len]; exact hr
    refine ⟨⟨lt_of_lt_of_le hr1 D.len, fun kind g hg => ?_⟩, ?_⟩
    · rw [D.refs] at hg
      rcases D.get kind hg with e | ⟨_, e, _⟩
      · rw [e, G.get]; exact hd kind g (by rw [← G.refs]; exact hg)
      · omega
    · rw [D.same r hr1]
      exact G.same r (fun e => hd .sites i hi e.symm) (fun e => hd .bonds i hi e.symm)

/-- The list of a cluster after one step: still the list of the cluster, or given up with its last value. -/
theorem CInv.list_step (I : CInv env L w) (h : CMove env v w w') (kind : Kind) {g : Nat} (hg : g < 2 * (L * L)) :
    w'.2.get kind g = w.2.get kind g ∨
    (w'.2.get kind g ≠ w.2.get kind g ∧ Dead w'.2 (w.2.get kind g) ∧ w'.2.listAt (w.2.get kind g) = w.2.listAt (w.2.get kind g) ∧
      (SqPerc.members w'.1 kind g = .ok [] ∨ ∃ draws, w.1.reset env v draws = .ok w'.1)) := by
  have I' := I.move h
  have hl := I.refs_length
  have hr := I.get_lt (kind := kind) hg
  have e := I.effect h
  generalize hr0 : w.2.get kind g = r at *
  cases e with
  | same e => left; rw [e, hr0]
  | init n hR e =>
    right
    obtain ⟨h1, h2, _⟩ := init_old w.2 n
    have hf : ∀ kind, ∀ g < w'.2.refs.length, w'.2.get kind g ≠ r := by
      intro kind g hg
      rw [e] at hg ⊢
      have := get_init kind hg
      omega
    exact ⟨hf kind g (by rw [I'.refs_length]; exact hg), ⟨by rw [e]; omega, hf⟩, by rw [e]; exact h2 r hr, Or.inr hR⟩
  | placed i c1 hi G D =>
    rcases D.get kind (g := g) (by rw [G.refs, hl]; exact hg) with e | ⟨hne, hge, hnil⟩
    · left; rw [e, G.get, hr0]
    · right
      have hr1 : r < c1.heap.length := by rw [G.len]; exact hr
      have hng : w'.2.get kind g ≠ r := by omega
      refine ⟨hng, ⟨lt_of_lt_of_le hr1 D.len, fun k2 g2 hg2 => ?_⟩, ?_, Or.inl ?_⟩
      · rw [I'.refs_length] at hg2
        rcases D.get k2 (g := g2) (by rw [G.refs, hl]; exact hg2) with e | ⟨_, e, _⟩
        · rw [e, G.get]
          intro h
          obtain ⟨rfl, rfl⟩ := I.get_inj hg2 hg (h.trans hr0.symm)
          rw [e, G.get] at hng
          exact hng h
        · omega
      · rw [D.same r hr1]
        rw [hl] at hi
        refine G.same r (fun h => hne ?_) (fun h => hne ?_)
        · exact (I.get_inj (k1 := kind) (k2 := .sites) hg hi (hr0.trans h)).2
        · exact (I.get_inj (k1 := kind) (k2 := .bonds) hg hi (hr0.trans h)).2
      · rw [I'.members hg, hnil]

/-- C103: a list obtained from `get_sites(g)` or `get_bonds(g)` at any moment of any history, and read at any later moment.  Either it is
still the list of that cluster and shows what `get_sites(g)` or `get_bonds(g)` would return now, or there was one step (a placement that
emptied the cluster, or a reset) since which it shows what it showed just before that step. -/
theorem C103_list (h : CReach env v L w) (hm : Relation.ReflTransGen (CMove env v) w w') (kind : Kind) {g : Nat} (hg : g < 2 * (L * L)) :
    ∃ l, w'.2.value (w.2.get kind g) = some l ∧
      (w'.2.get kind g = w.2.get kind g ∧ members w'.1 kind g = .ok l ∨
       ∃ w1 w2, Relation.ReflTransGen (CMove env v) w w1 ∧ CMove env v w1 w2 ∧ Relation.ReflTransGen (CMove env v) w2 w' ∧
        w1.2.get kind g = w.2.get kind g ∧ members w1.1 kind g = .ok l ∧ w2.2.get kind g ≠ w.2.get kind g ∧
        (members w2.1 kind g = .ok [] ∨ ∃ draws, w1.1.reset env v draws = .ok w2.1)) := by
  have I0 := h.inv
  suffices q : (w'.2.get kind g = w.2.get kind g) ∨ (Dead w'.2 (w.2.get kind g) ∧
      ∃ w1 w2, Relation.ReflTransGen (CMove env v) w w1 ∧ CMove env v w1 w2 ∧ Relation.ReflTransGen (CMove env v) w2 w' ∧
        w1.2.get kind g = w.2.get kind g ∧ members w1.1 kind g = .ok (w'.2.listAt (w.2.get kind g)) ∧ w2.2.get kind g ≠ w.2.get kind g ∧
        (members w2.1 kind g = .ok [] ∨ ∃ draws, w1.1.reset env v draws = .ok w2.1)) by
    have I' := (h.moves hm).inv
    rcases q with q | ⟨hd, q⟩
    · refine ⟨_, Cells.value_of_lt (by rw [← q]; exact I'.get_lt hg), Or.inl ⟨q, ?_⟩⟩
      rw [← q]; exact I'.members hg
    · exact ⟨_, Cells.value_of_lt hd.1, Or.inr q⟩
  induction hm with
  | refl => exact Or.inl rfl
  | @tail x y hx hxy ih =>
    have Ix := (h.moves hx).inv
    rcases ih with q | ⟨hd, w1, w2, m1, m2, m3, q1, q2, q3, q4⟩
    · rcases Ix.list_step hxy kind hg with e | ⟨e1, e2, e3, e4⟩
      · exact Or.inl (e.trans q)
      · rw [q] at e1 e2 e3
        refine Or.inr ⟨e2, x, y, hx, hxy, .refl, q, ?_, e1, e4⟩
        rw [e3, ← q]; exact Ix.members hg
    · obtain ⟨d1, d2⟩ := hd.effect (Ix.effect hxy)
      exact Or.inr ⟨d1, w1, w2, m1, m2, m3.tail hxy, q1, by rw [d2]; exact q2, q3, q4⟩

/-- C103: a list object belongs to at most one cluster and to one of its two lists. -/
theorem C103_apart (h : CReach env v L w) {k1 k2 : Kind} {g1 g2 : Nat} (h1 : g1 < 2 * (L * L)) (h2 : g2 < 2 * (L * L)) :
    w.2.get k1 g1 = w.2.get k2 g2 ↔ k1 = k2 ∧ g1 = g2 :=
  ⟨fun e => h.inv.get_inj h1 h2 e, fun ⟨e1, e2⟩ => by rw [e1, e2]⟩

/-- C103: whoever holds a list sees it only grow at its end, or stay as it is, whatever happens to the object. -/
theorem C103_append (h : CReach env v L w) (hm : Relation.ReflTransGen (CMove env v) w w') {r : Nat} {l : List Nat} (hr : w.2.value r = some l) :
    ∃ more, w'.2.value r = some (l ++ more) := by
  induction hm with
  | refl => exact ⟨[], by rw [List.append_nil]; exact hr⟩
  | @tail x y hx hxy ih =>
    obtain ⟨more, hv⟩ := ih
    have Ix := (h.moves hx).inv
    have hlt : r < x.2.heap.length := (List.getElem?_eq_some_iff.1 hv).1
    have hl : x.2.listAt r = l ++ more := by rw [Cells.value_of_lt hlt] at hv; exact Option.some.inj hv
    cases Ix.effect hxy with
    | same e => exact ⟨more, by rw [e]; exact hv⟩
    | init n _ e =>
      obtain ⟨h1, h2, _⟩ := init_old x.2 n
      refine ⟨more, ?_⟩
      rw [e, Cells.value_of_lt (by omega), h2 r hlt, hl]
    | placed i c1 hi G D =>
      have hr1 : r < c1.heap.length := by rw [G.len]; exact hlt
      obtain ⟨t, ht⟩ := G.pre r
      refine ⟨more ++ t, ?_⟩
      rw [Cells.value_of_lt (lt_of_lt_of_le hr1 D.len), D.same r hr1, ← ht, hl, List.append_assoc]

/-- C103: once wrapping has been detected, the lists of the wrapping cluster are its lists until the next reset. -/
theorem C103_wrapping (h : CReach env v L w) (hw : w.1.afterWrapping = true) (hm : Relation.ReflTransGen (CStep env v) w w') (kind : Kind) :
    ∃ g : Nat, w.1.wrappingId = g ∧ w'.1.wrappingId = g ∧ w'.2.get kind g = w.2.get kind g ∧
      ∃ l, members w'.1 kind g = .ok l ∧ w'.2.value (w.2.get kind g) = some l := by
  obtain ⟨⟨A, M, hA⟩, H⟩ := h.inv
  obtain ⟨h0, h1⟩ := mem_gids.1 (hA.wid_gids (M.aw ▸ hw)).1
  have hg : w.1.wrappingId = (w.1.wrappingId.toNat : Int) := by rw [M.wid]; omega
  have hlt : w.1.wrappingId.toNat < 2 * (L * L) := by rw [M.wid]; omega
  have key : w'.1.wrappingId = w.1.wrappingId ∧ w'.1.afterWrapping = true ∧
      w'.2.get kind w.1.wrappingId.toNat = w.2.get kind w.1.wrappingId.toNat ∧ CReach env v L w' := by
    induction hm with
    | refl => exact ⟨rfl, hw, rfl, h⟩
    | @tail x y hx hxy ih =>
      obtain ⟨e1, e2, e3, e4⟩ := ih
      have Ix := e4.inv
      have hy : CReach env v L y := e4.move (.step hxy)
      cases hxy with
      | @place S S' c c' d b hp =>
        obtain ⟨⟨B, N, hB⟩, HB⟩ := Ix
        have hk : S'.wrappingId = S.wrappingId ∧ S'.afterWrapping = S.afterWrapping := by
          obtain ⟨_, V1, _, q | q | q⟩ := placeOneSite_sim N hB.inv (placeC_fst hp)
          · obtain ⟨_, _, k, r, V', P', _, _, _, _, _, N'⟩ := q
            exact ⟨N'.wid.trans N.wid.symm, N'.aw.trans N.aw.symm⟩
          · exact ⟨q.2.2.wid.trans N.wid.symm, q.2.2.aw.trans N.aw.symm⟩
          · exact ⟨q.2.2.wid.trans N.wid.symm, q.2.2.aw.trans N.aw.symm⟩
        refine ⟨hk.1.trans e1, hk.2.trans e2, ?_, hy⟩
        rw [← e3]
        obtain ⟨_, e | ⟨i, c1, hi, G, D⟩⟩ := placeOneSiteC_effect N hB.inv HB hp
        · exact congrArg (fun c => Cells.get c kind _) e
        · have hrl : c1.refs.length = 2 * (L * L) := by rw [G.refs]; exact e4.inv.refs_length
          rcases D.get kind (g := w.1.wrappingId.toNat) (by rw [hrl]; exact hlt) with e | ⟨⟨_, hx⟩, _⟩
          · exact e.trans (G.get kind _)
          · have e1' : S.wrappingId = w.1.wrappingId := e1
            exact absurd (by rw [e1']) (hx e2 (by rw [e1', M.wid]; exact h0))
      | @quiet S S' c hq =>
        have hk : S'.wrappingId = S.wrappingId ∧ S'.afterWrapping = S.afterWrapping := by
          have haw : S.afterWrapping = true := e2
          cases hq with
          | detect hd =>
            simp only [Perc.detectWrapping] at hd
            rw [if_pos haw] at hd
            cases hd
            exact ⟨rfl, rfl⟩
          | shuffle hs => obtain ⟨_, _, rfl⟩ := shuffle_ok hs; exact ⟨rfl, rfl⟩
          | setIds hs =>
            obtain ⟨⟨B, N, hB⟩, HB⟩ := Ix
            have N' := setCustomIds_sim N hs
            exact ⟨N'.wid.trans N.wid.symm, N'.aw.trans N.aw.symm⟩
          | setIndices hs =>
            obtain ⟨⟨B, N, hB⟩, HB⟩ := Ix
            have N' := setCustomIndices_sim N hs
            exact ⟨N'.wid.trans N.wid.symm, N'.aw.trans N.aw.symm⟩
          | swapIds hs => obtain ⟨_, _, rfl⟩ := swapIds_ok hs; exact ⟨rfl, rfl⟩
          | raised he =>
            obtain ⟨⟨B, N, hB⟩, HB⟩ := Ix
            rcases placeRaised_cases N hB.inv he with h | ⟨k, _, _, _, _, _, h⟩
            · rw [h]; exact ⟨rfl, rfl⟩
            · rw [h]; exact ⟨rfl, rfl⟩
          | @swapRaised i j e he => obtain ⟨ids, e⟩ := swapRaised_form S i j; rw [e]; exact ⟨rfl, rfl⟩
          | data fr l1 l2 l3 l4 p => exact ⟨rfl, rfl⟩
          | write l => exact ⟨rfl, rfl⟩
        exact ⟨hk.1.trans e1, hk.2.trans e2, e3, hy⟩
  obtain ⟨k1, _, k3, k4⟩ := key
  refine ⟨_, hg, k1.trans hg, k3, _, k4.inv.members hlt, ?_⟩
  rw [← k3]
  exact Cells.value_of_lt (k4.inv.get_lt hlt)

/-! ### The steps cover all calls -/

theorem moves_place {S T T' : Perc α} {c : Cells} {d : Draw} {b : Bool} (h : ∃ c', Relation.ReflTransGen (CMove env v) (S, c) (T, c'))
    (hp : T.placeOneSite env v d = .ok (T', b)) : ∃ c', Relation.ReflTransGen (CMove env v) (S, c) (T', c') := by
  obtain ⟨c1, h1⟩ := h
  obtain ⟨c2, h2⟩ := placeC_of c1 hp
  exact ⟨c2, h1.tail (.step (.place h2))⟩

theorem moves_quiet {S T T' : Perc α} {c : Cells} (h : ∃ c', Relation.ReflTransGen (CMove env v) (S, c) (T, c')) (hq : Quiet env v T T') :
    ∃ c', Relation.ReflTransGen (CMove env v) (S, c) (T', c') := by
  obtain ⟨c1, h1⟩ := h
  exact ⟨c1, h1.tail (.step (.quiet hq))⟩

theorem quiet_record {T T' : Perc α} (h : T.record env = .ok T') : Quiet env v T T' := by
  obtain ⟨p, _, rfl⟩ := record_ok h
  exact Quiet.data T.firstRun _ _ _ _ T.shortestP

theorem step_moves {S S' : Perc α} {op : Op} (hs : SqPerc.step env v S op = .ok S') (c : Cells) :
    ∃ c', Relation.ReflTransGen (CMove env v) (S, c) (S', c') := by
  have h0 : ∃ c', Relation.ReflTransGen (CMove env v) (S, c) (S, c') := ⟨c, .refl⟩
  have hdata : ∀ {T : Perc α} (fr : Bool) (l1 l2 l3 l4 : List α), (∃ c', Relation.ReflTransGen (CMove env v) (S, c) (T, c')) →
      ∃ c', Relation.ReflTransGen (CMove env v) (S, c) ({ T with firstRun := fr, occProbList := l1, entropyList := l2, orderWrapList := l3, orderLargestList := l4 }, c') :=
    fun {T} fr l1 l2 l3 l4 h => moves_quiet h (Quiet.data fr l1 l2 l3 l4 T.shortestP)
  cases op with
  | place d =>
    simp only [SqPerc.step] at hs
    cases h1 : S.placeOneSite env v d with
    | error e => rw [h1] at hs; cases hs
    | ok r => rw [h1] at hs; rw [← Except.ok.inj hs]; exact moves_place (b := r.2) h0 h1
  | detect =>
    simp only [SqPerc.step] at hs
    cases h1 : S.detectWrapping with
    | error e => rw [h1] at hs; cases hs
    | ok r => rw [h1] at hs; rw [← Except.ok.inj hs]; exact moves_quiet h0 (.detect (w := r.2) h1)
  | runOnce fuel ds =>
    simp only [SqPerc.step, Perc.runOnceV] at hs
    have gen : ∀ {S'}, S.runOnce env v fuel ds = .ok S' → ∃ c', Relation.ReflTransGen (CMove env v) (S, c) (S', c') := by
      intro S' h
      simp only [Perc.runOnce] at h
      cases h1 : Perc.runLoop env v fuel ds S with
      | error e => rw [h1] at h; cases h
      | ok S1 =>
        rw [h1] at h
        rw [← Except.ok.inj h]
        exact hdata false S1.occProbList S1.entropyList S1.orderWrapList S1.orderLargestList
          (runLoop_ind (fun T => ∃ c', Relation.ReflTransGen (CMove env v) (S, c) (T, c')) moves_place (fun q h => moves_quiet q (.detect h))
            (fun q h => moves_quiet q (quiet_record h)) fuel h0 h1)
    cases v with
    | sp =>
      simp only [Perc.spRunOnce] at hs
      cases h1 : Perc.spLoop env fuel S with
      | error e => rw [h1] at hs; cases hs
      | ok r =>
        rw [h1] at hs
        rw [← Except.ok.inj hs]
        exact hdata false r.1.occProbList r.1.entropyList r.1.orderWrapList r.1.orderLargestList
          (spLoop_ind (fun T => ∃ c', Relation.ReflTransGen (CMove env .sp) (S, c) (T, c')) moves_place (fun q h => moves_quiet q (.detect h))
            (fun {T p} q => moves_quiet q (Quiet.data T.firstRun T.occProbList T.entropyList T.orderWrapList T.orderLargestList p))
            fuel h0 (S' := r.1) (b := r.2) h1)
    | l0 => exact gen hs
    | l1 => exact gen hs
    | l2 => exact gen hs
  | testRunOnce fuel ds =>
    simp only [SqPerc.step, Perc.testRunOnce] at hs
    cases h1 : Perc.testRunLoop env v fuel ds S with
    | error e => rw [h1] at hs; cases hs
    | ok S1 =>
      rw [h1] at hs
      rw [← Except.ok.inj hs]
      exact hdata false S1.occProbList S1.entropyList S1.orderWrapList S1.orderLargestList
        (testRunLoop_ind (fun T => ∃ c', Relation.ReflTransGen (CMove env v) (S, c) (T, c')) moves_place (fun q h => moves_quiet q (.detect h))
          (fun q h => moves_quiet q (quiet_record h)) fuel h0 h1)
  | reset draws => exact ⟨_, .single (.reset hs)⟩
  | shuffle draws => exact moves_quiet h0 (.shuffle hs)
  | setIds ids b draws => exact moves_quiet h0 (.setIds hs)
  | setIndices ids b draws => exact moves_quiet h0 (.setIndices hs)
  | swapIds i j => exact moves_quiet h0 (.swapIds hs)

theorem stepRaised_moves {S : Perc α} {op : Op} {e : PyErr} (hs : SqPerc.step env v S op = .error e) (c : Cells) :
    ∃ c', Relation.ReflTransGen (CMove env v) (S, c) (stepRaised env v S op, c') :=
  stepRaised_ind (fun T => ∃ c', Relation.ReflTransGen (CMove env v) (S, c) (T, c')) moves_place (fun q h => moves_quiet q (.raised h))
    (fun q h => moves_quiet q (.detect h)) (fun q h => moves_quiet q (quiet_record h)) (fun _ q h => moves_quiet q (.swapRaised h)) ⟨c, .refl⟩ hs

/-- C103: the steps above are what the calls consist of: a call that returns, a call whose exception is caught, and an assignment by others to
a custom list are sequences of steps; and every reachable object is a reachable object with its member lists. -/
theorem C103_calls :
    (∀ {S S' : Perc α} {op : Op} (c : Cells), SqPerc.step env v S op = .ok S' → ∃ c', Relation.ReflTransGen (CMove env v) (S, c) (S', c')) ∧
    (∀ {S : Perc α} {op : Op} {e : PyErr} (c : Cells), SqPerc.step env v S op = .error e →
      ∃ c', Relation.ReflTransGen (CMove env v) (S, c) (stepRaised env v S op, c')) ∧
    (∀ {S : Perc α} (c : Cells) (l : List Nat), Relation.ReflTransGen (CMove env v) (S, c) ({ S with siteIds := l }, c)) ∧
    ∀ {S : Perc α}, Reach env v L S → ∃ c, CReach env v L (S, c) := by
  refine ⟨fun c h => step_moves h c, fun c h => stepRaised_moves h c, fun c l => .single (.step (.quiet (.write l))), fun {S} h => ?_⟩
  induction h with
  | new h => exact ⟨_, .new h⟩
  | step op _ hs ih =>
    obtain ⟨c, hc⟩ := ih
    obtain ⟨c', h⟩ := step_moves hs c
    exact ⟨c', hc.moves h⟩
  | caught op _ hs _ ih =>
    obtain ⟨c, hc⟩ := ih
    obtain ⟨c', h⟩ := stepRaised_moves hs c
    exact ⟨c', hc.moves h⟩
  | write l _ _ _ _ ih =>
    obtain ⟨c, hc⟩ := ih
    exact ⟨c, hc.move (.step (.quiet (.write l)))⟩

/-- C103: the placement with the member lists is the placement. -/
theorem C103_same (S : Perc α) (c : Cells) (d : Draw) : (S.placeOneSiteC env v c d).map (fun r => (r.1, r.2.2)) = S.placeOneSite env v d :=
  placeOneSiteC_fst S c d

/-! ### Witnesses -/

/-- `n` calls of `place_one_site()`. -/
def placesC (env : Env α) (v : Variant) : Nat → Perc α × Cells → Option (Perc α × Cells)
  | 0, w => some w
  | n + 1, (S, c) =>
    match S.placeOneSiteC env v c ⟨0, 0⟩ with
    | .ok (S, c, _) => placesC env v n (S, c)
    | .error _ => none

theorem placesC_steps (n : Nat) : ∀ {w w' : Perc α × Cells}, placesC env v n w = some w' → Relation.ReflTransGen (CStep env v) w w' := by
  induction n with
  | zero => intro w w' h; cases h; exact .refl
  | succ n ih =>
    rintro ⟨S, c⟩ w' h
    simp only [placesC] at h
    cases h1 : S.placeOneSiteC env v c ⟨0, 0⟩ with
    | error e => rw [h1] at h; cases h
    | ok r =>
      obtain ⟨S1, c1, b⟩ := r
      rw [h1] at h
      exact Relation.ReflTransGen.head (.place h1) (ih h)

/-- A new object on which `n` sites are placed in the given order, then wrapping is looked for, then `m` more sites are placed. -/
def demoC (L : Nat) (ids : List Int) (n m : Nat) : Option ((Perc Unit × Cells) × (Perc Unit × Cells)) :=
  match Perc.new demoEnv L (fun _ => 0) with
  | .error _ => none
  | .ok S =>
    match S.setCustomIds ids false (fun _ => 0) with
    | .error _ => none
    | .ok S1 =>
      match placesC demoEnv .l0 n (S1, Cells.init ⟨[], []⟩ S.lat.bondCount) with
      | none => none
      | some (S2, c2) =>
        match S2.detectWrapping with
        | .error _ => none
        | .ok (S3, _) =>
          match placesC demoEnv .l0 m (S3, c2) with
          | none => none
          | some w => some ((S3, c2), w)

theorem demoC_reach {L : Nat} {ids : List Int} {n m : Nat} {w w' : Perc Unit × Cells} (h : demoC L ids n m = some (w, w')) :
    CReach demoEnv .l0 L w ∧ Relation.ReflTransGen (CStep demoEnv .l0) w w' := by
  unfold demoC at h
  split at h
  · cases h
  · rename_i S hS
    split at h
    · cases h
    · rename_i S1 hS1
      split at h
      · cases h
      · rename_i S2 c2 h2
        split at h
        · cases h
        · rename_i S3 b h3
          split at h
          · cases h
          · rename_i w4 h4
            cases h
            have r1 : CReach demoEnv .l0 L (S1, Cells.init ⟨[], []⟩ S.lat.bondCount) := (CReach.new hS).move (.step (.quiet (.setIds hS1)))
            have r2 := r1.moves (Relation.ReflTransGen.mono (fun _ _ h => CMove.step h) _ _ (placesC_steps n h2))
            exact ⟨r2.move (.step (.quiet (.detect h3))), placesC_steps m h4⟩

theorem demoC_check {L : Nat} {ids : List Int} {n m : Nat} {P : (Perc Unit × Cells) × (Perc Unit × Cells) → Bool}
    (h : (match demoC L ids n m with | some x => P x | none => false) = true) :
    ∃ w w', CReach demoEnv .l0 L w ∧ Relation.ReflTransGen (CStep demoEnv .l0) w w' ∧ P (w, w') = true := by
  cases hd : demoC L ids n m with
  | none => rw [hd] at h; cases h
  | some x =>
    rw [hd] at h
    obtain ⟨h1, h2⟩ := demoC_reach (w := x.1) (w' := x.2) hd
    exact ⟨x.1, x.2, h1, h2, h⟩

/-- Sites 0 and 2 of a lattice of length 4 are occupied and site 1 follows.  A caller who got the site lists of the clusters 28 and 30 before
the third placement now holds the list of the merged cluster and an old list, which still shows site 2 although cluster 30 is empty. -/
example : ∃ w w', CReach demoEnv .l0 4 w ∧ Relation.ReflTransGen (CStep demoEnv .l0) w w' ∧
    members w.1 .sites 28 = .ok [0] ∧ members w.1 .sites 30 = .ok [2] ∧
    w'.2.get .sites 28 = w.2.get .sites 28 ∧ w'.2.value (w.2.get .sites 28) = some [0, 1, 2] ∧
    w'.2.get .sites 30 ≠ w.2.get .sites 30 ∧ w'.2.value (w.2.get .sites 30) = some [2] ∧ members w'.1 .sites 30 = .ok [] := by
  obtain ⟨w, w', h1, h2, h3⟩ := demoC_check (L := 4) (ids := [0, 2, 1]) (n := 2) (m := 1) (P := fun x =>
    isOk (members x.1.1 .sites 28) [0] && isOk (members x.1.1 .sites 30) [2] && decide (x.2.2.get .sites 28 = x.1.2.get .sites 28) &&
    decide (x.2.2.value (x.1.2.get .sites 28) = some [0, 1, 2]) && decide (x.2.2.get .sites 30 ≠ x.1.2.get .sites 30) &&
    decide (x.2.2.value (x.1.2.get .sites 30) = some [2]) && isOk (members x.2.1 .sites 30) []) (by decide +kernel)
  simp only [Bool.and_eq_true, decide_eq_true_eq, isOk_iff] at h3
  exact ⟨w, w', h1, h2, h3.1.1.1.1.1.1, h3.1.1.1.1.1.2, h3.1.1.1.1.2, h3.1.1.1.2, h3.1.1.2, h3.1.2, h3.2⟩

/-- The three sites of a row of a lattice of length 3 wrap around it; the list of the wrapping cluster then follows the cluster. -/
example : ∃ w w', CReach demoEnv .l0 3 w ∧ Relation.ReflTransGen (CStep demoEnv .l0) w w' ∧ w.1.afterWrapping = true ∧
    ∃ g : Nat, w.1.wrappingId = g ∧ w.2.value (w.2.get .sites g) = some [0, 1, 2] ∧ w'.2.value (w.2.get .sites g) = some [0, 1, 2, 3, 4] := by
  obtain ⟨w, w', h1, h2, h3⟩ := demoC_check (L := 3) (ids := [0, 1, 2, 3, 4]) (n := 3) (m := 2) (P := fun x =>
    x.1.1.afterWrapping && decide (0 ≤ x.1.1.wrappingId) && decide (x.1.2.value (x.1.2.get .sites x.1.1.wrappingId.toNat) = some [0, 1, 2]) &&
    decide (x.2.2.value (x.1.2.get .sites x.1.1.wrappingId.toNat) = some [0, 1, 2, 3, 4])) (by decide +kernel)
  simp only [Bool.and_eq_true, decide_eq_true_eq] at h3
  exact ⟨w, w', h1, h2, h3.1.1.1, _, (by rw [Int.toNat_of_nonneg h3.1.1.2]), h3.1.2, h3.2⟩

end SqPerc
