import Verif.Model.Cells
import Verif.Proof.Keep
/-
The member lists of the clusters as list objects: what the operations on the pool do to them.
-/
namespace SqPerc

variable {α : Type} {L : Nat} {env : Env α} {v : Variant}

/-! ### The clusters and their lists -/

/-- The list objects have the values stored in the clusters, and no two clusters share one. -/
structure Stored (c : Cells) (p : ClusterPool) : Prop where
  len : c.refs.length = p.clusters.length
  bound : ∀ i < c.refs.length, (c.refsAt i).1 < c.heap.length ∧ (c.refsAt i).2 < c.heap.length
  sites : ∀ i cl, p.clusters[i]? = some cl → c.listAt (c.refsAt i).1 = cl.siteIds
  bonds : ∀ i cl, p.clusters[i]? = some cl → c.listAt (c.refsAt i).2 = cl.bondIds
  apart : ∀ i < c.refs.length, ∀ j < c.refs.length, (c.refsAt i).1 ≠ (c.refsAt j).2
  injS : ∀ i < c.refs.length, ∀ j < c.refs.length, (c.refsAt i).1 = (c.refsAt j).1 → i = j
  injB : ∀ i < c.refs.length, ∀ j < c.refs.length, (c.refsAt i).2 = (c.refsAt j).2 → i = j

variable {c c' c'' : Cells} {p p' : ClusterPool} {lat lat' : Lattice} {S S' : Perc α}

theorem listAt_extend {r s : Nat} {xs : List Nat} (hs : s < c.heap.length) :
    (c.extend s xs).listAt r = if r = s then c.listAt s ++ xs else c.listAt r := by
  simp only [Cells.listAt, Cells.extend]
  by_cases h : r = s
  · rw [if_pos h, h, List.getElem?_set_self hs]; rfl
  · rw [if_neg h, List.getElem?_set_ne (fun e => h e.symm)]

theorem listAt_append {h : List (List Nat)} {m : List (List Nat)} {rs rs' : List (Nat × Nat)} {r : Nat} (hr : r < h.length) :
    Cells.listAt ⟨h ++ m, rs⟩ r = Cells.listAt ⟨h, rs'⟩ r := by
  simp only [Cells.listAt]
  rw [List.getElem?_append_left hr]

theorem listAt_append_new {h : List (List Nat)} {m : List (List Nat)} {rs : List (Nat × Nat)} (k : Nat) :
    Cells.listAt ⟨h ++ m, rs⟩ (h.length + k) = (m[k]?).getD [] := by
  simp only [Cells.listAt]
  rw [List.getElem?_append_right (by omega), Nat.add_sub_cancel_left]

/-- The position meant by an int. -/
def posOf (n : Nat) (g : Int) : Nat := if 0 ≤ g then g.toNat else ((n : Int) + g).toNat

theorem Cells.pos_eq (c : Cells) (g : Int) : c.pos g = posOf c.refs.length g := rfl

theorem pyGetI_some {β : Type} {l : List β} {g : Int} {a : β} (h : pyGetI l g = .ok a) : l[posOf l.length g]? = some a := by
  unfold pyGetI at h
  unfold posOf
  split at h
  · rw [if_pos ‹_›]
    unfold pyGet at h
    split at h
    · rename_i h1; rw [h1, Except.ok.inj h]
    · cases h
  · rw [if_neg ‹_›]
    split at h
    · unfold pyGet at h
      split at h
      · rename_i h1; rw [h1, Except.ok.inj h]
      · cases h
    · cases h

theorem pyModifyI_some {β : Type} {l l' : List β} {g : Int} {f : β → β} (h : pyModifyI l g f = .ok l') :
    ∃ a, l[posOf l.length g]? = some a ∧ l' = l.set (posOf l.length g) (f a) := by
  unfold pyModifyI at h
  unfold posOf
  split at h
  · rw [if_pos ‹_›]
    unfold pyModify at h
    split at h
    · rename_i h1; exact ⟨_, h1, (Except.ok.inj h).symm⟩
    · cases h
  · rw [if_neg ‹_›]
    split at h
    · unfold pyModify at h
      split at h
      · rename_i h1; exact ⟨_, h1, (Except.ok.inj h).symm⟩
      · cases h
    · cases h

theorem lt_of_some {β : Type} {l : List β} {i : Nat} {a : β} (h : l[i]? = some a) : i < l.length := (List.getElem?_eq_some_iff.1 h).1

/-- Only the two lists of the cluster at position `i` may have changed. -/
structure Extends (i : Nat) (c c' : Cells) : Prop where
  refs : c'.refs = c.refs
  len : c'.heap.length = c.heap.length
  same : ∀ r, r ≠ (c.refsAt i).1 → r ≠ (c.refsAt i).2 → c'.listAt r = c.listAt r
  pre : ∀ r, c.listAt r <+: c'.listAt r

theorem Extends.refl (i : Nat) (c : Cells) : Extends i c c := ⟨rfl, rfl, fun _ _ _ => rfl, fun _ => List.prefix_rfl⟩

theorem Extends.refsAt {i : Nat} (h : Extends i c c') (j : Nat) : c'.refsAt j = c.refsAt j := by simp only [Cells.refsAt, h.refs]

theorem Extends.trans {i : Nat} (h : Extends i c c') (g : Extends i c' c'') : Extends i c c'' :=
  ⟨g.refs.trans h.refs, g.len.trans h.len, fun r h1 h2 => (g.same r (by rw [h.refsAt]; exact h1) (by rw [h.refsAt]; exact h2)).trans (h.same r h1 h2),
    fun r => (h.pre r).trans (g.pre r)⟩

theorem Extends.extend {i r : Nat} {xs : List Nat} (h : r = (c.refsAt i).1 ∨ r = (c.refsAt i).2) : Extends i c (c.extend r xs) := by
  refine ⟨rfl, by simp [Cells.extend], fun s h1 h2 => ?_, fun s => ?_⟩
  swap
  · simp only [Cells.listAt, Cells.extend]
    by_cases hs : r = s
    · subst hs
      rw [List.getElem?_set]
      simp only [if_true]
      split
      · exact List.prefix_append _ _
      · rename_i h; rw [List.getElem?_eq_none (by omega)]
    · rw [List.getElem?_set_ne hs]
  have : s ≠ r := by rcases h with h | h <;> rw [h] <;> assumption
  simp only [Cells.listAt, Cells.extend]
  rw [List.getElem?_set_ne (fun e => this e.symm)]

theorem Stored.addSite {g : Int} {s : Nat} (H : Stored c p) (h : p.addSite g s = .ok p') :
    Stored (c.addSite g s) p' ∧ Extends (c.pos g) c (c.addSite g s) := by
  unfold ClusterPool.addSite at h
  cases h1 : pyModifyI p.clusters g (fun c => { c with siteIds := c.siteIds ++ [s] }) with
  | error e => rw [h1] at h; cases h
  | ok cs =>
    rw [h1] at h
    rw [← Except.ok.inj h]
    obtain ⟨cl, h2, rfl⟩ := pyModifyI_some h1
    rw [← H.len, ← c.pos_eq] at h2 ⊢
    have hi : c.pos g < c.refs.length := by rw [H.len]; exact lt_of_some h2
    have hb := H.bound _ hi
    have G : Extends (c.pos g) c (c.addSite g s) := Extends.extend (Or.inl rfl)
    refine ⟨⟨by simp [Cells.addSite, Cells.extend, H.len], ?_, ?_, ?_, ?_, ?_, ?_⟩, G⟩
    · intro i h; rw [G.refsAt, G.len]; exact H.bound i h
    · intro i cl' h
      rw [G.refsAt, Cells.addSite, listAt_extend hb.1]
      by_cases e : i = c.pos g
      · subst e
        rw [List.getElem?_set_self (lt_of_some h2)] at h
        rw [if_pos rfl, H.sites _ _ h2, ← Option.some.inj h]
      · rw [List.getElem?_set_ne (Ne.symm e)] at h
        rw [if_neg (fun h' => e (H.injS _ (by rw [H.len]; exact lt_of_some h) _ hi h')), H.sites _ _ h]
    · intro i cl' h
      rw [G.refsAt, Cells.addSite, listAt_extend hb.1]
      have hil : i < c.refs.length := by rw [H.len]; simpa using lt_of_some h
      rw [if_neg (fun h' => H.apart _ hi _ hil h'.symm)]
      by_cases e : i = c.pos g
      · subst e
        rw [List.getElem?_set_self (lt_of_some h2)] at h
        rw [H.bonds _ _ h2, ← Option.some.inj h]
      · rw [List.getElem?_set_ne (Ne.symm e)] at h
        rw [H.bonds _ _ h]
    · intro i hi j hj; rw [G.refsAt, G.refsAt]; exact H.apart i hi j hj
    · intro i hi j hj; rw [G.refsAt, G.refsAt]; exact H.injS i hi j hj
    · intro i hi j hj; rw [G.refsAt, G.refsAt]; exact H.injB i hi j hj

theorem Stored.merge {a b : Int} (H : Stored c p) (h : p.mergeClusterWith a b lat = .ok (p', lat')) :
    Stored (c.merge a b) p' ∧ Extends (c.pos a) c (c.merge a b) := by
  unfold ClusterPool.mergeClusterWith at h
  cases ha : pyGetI p.clusters a with
  | error e => rw [ha] at h; cases h
  | ok ca =>
  cases hb : pyGetI p.clusters b with
  | error e => rw [ha, hb] at h; cases h
  | ok cb =>
  rw [ha, hb] at h
  replace h : (ClusterPool.assignBonds ca.gid cb.bondIds lat >>= _) = _ := h
  cases h1 : ClusterPool.assignBonds ca.gid cb.bondIds lat with
  | error e => rw [h1] at h; cases h
  | ok l1 =>
  rw [h1] at h
  replace h : (ClusterPool.assignSites ca.gid cb.siteIds l1 >>= _) = _ := h
  cases h2 : ClusterPool.assignSites ca.gid cb.siteIds l1 with
  | error e => rw [h2] at h; cases h
  | ok l2 =>
  rw [h2] at h
  replace h : (pyModifyI p.clusters a _ >>= _) = _ := h
  cases h3 : pyModifyI p.clusters a (fun c => { c with bondIds := c.bondIds ++ cb.bondIds, siteIds := c.siteIds ++ cb.siteIds }) with
  | error e => rw [h3] at h; cases h
  | ok cs =>
  rw [h3] at h
  have hp := (Prod.mk.inj (Except.ok.inj h)).1
  rw [← hp]
  obtain ⟨cl, h4, rfl⟩ := pyModifyI_some h3
  have h5 := pyGetI_some hb
  rw [← H.len, ← c.pos_eq] at h4 h5 ⊢
  have hi : c.pos a < c.refs.length := by rw [H.len]; exact lt_of_some h4
  have hj : c.pos b < c.refs.length := by rw [H.len]; exact lt_of_some h5
  have hba := H.bound _ hi
  have G1 : Extends (c.pos a) c (c.extend (c.refsAt (c.pos a)).2 (c.listAt (c.refsAt (c.pos b)).2)) := Extends.extend (Or.inr rfl)
  have G : Extends (c.pos a) c (c.merge a b) := G1.trans (Extends.extend (Or.inl (by rw [G1.refsAt])))
  have val : ∀ r, (c.merge a b).listAt r = if r = (c.refsAt (c.pos a)).1 then c.listAt r ++ cb.siteIds
      else if r = (c.refsAt (c.pos a)).2 then c.listAt r ++ cb.bondIds else c.listAt r := by
    intro r
    simp only [Cells.merge]
    rw [listAt_extend (by rw [G1.len]; exact hba.1), listAt_extend hba.2, listAt_extend hba.2, listAt_extend hba.2,
      if_neg (H.apart _ hi _ hi), if_neg (H.apart _ hj _ hi), H.sites _ _ h5, H.bonds _ _ h5]
    by_cases e : r = (c.refsAt (c.pos a)).1
    · rw [if_pos e, if_pos e, e]
    · rw [if_neg e, if_neg e]
      by_cases e2 : r = (c.refsAt (c.pos a)).2
      · rw [if_pos e2, if_pos e2, e2]
      · rw [if_neg e2, if_neg e2]
  refine ⟨⟨by rw [G.refs]; simp [H.len], ?_, ?_, ?_, ?_, ?_, ?_⟩, G⟩
  · intro i h; rw [G.refsAt, G.len]; rw [G.refs] at h; exact H.bound i h
  · intro i cl' h
    rw [G.refsAt, val]
    have hil : i < c.refs.length := by rw [H.len]; simpa using lt_of_some h
    rw [if_neg (H.apart _ hil _ hi)]
    by_cases e : i = c.pos a
    · subst e
      rw [List.getElem?_set_self (lt_of_some h4)] at h
      rw [if_pos rfl, H.sites _ _ h4, ← Option.some.inj h]
    · rw [List.getElem?_set_ne (Ne.symm e)] at h
      rw [if_neg (fun h' => e (H.injS _ hil _ hi h')), H.sites _ _ h]
  · intro i cl' h
    rw [G.refsAt, val]
    have hil : i < c.refs.length := by rw [H.len]; simpa using lt_of_some h
    rw [if_neg (fun h' => H.apart _ hi _ hil h'.symm)]
    by_cases e : i = c.pos a
    · subst e
      rw [List.getElem?_set_self (lt_of_some h4)] at h
      rw [if_pos rfl, H.bonds _ _ h4, ← Option.some.inj h]
    · rw [List.getElem?_set_ne (Ne.symm e)] at h
      rw [if_neg (fun h' => e (H.injB _ hil _ hi h')), H.bonds _ _ h]
  · intro i hi j hj; rw [G.refsAt, G.refsAt]; rw [G.refs] at hi hj; exact H.apart i hi j hj
  · intro i hi j hj; rw [G.refsAt, G.refsAt]; rw [G.refs] at hi hj; exact H.injS i hi j hj
  · intro i hi j hj; rw [G.refsAt, G.refsAt]; rw [G.refs] at hi hj; exact H.injB i hi j hj

/-- No list has changed, but clusters at positions in `X` may have got new, empty lists. -/
structure Drop (X : Nat → Prop) (c c' : Cells) : Prop where
  refs : c'.refs.length = c.refs.length
  len : c.heap.length ≤ c'.heap.length
  same : ∀ r < c.heap.length, c'.listAt r = c.listAt r
  fresh : ∀ i < c.refs.length, c'.refsAt i = c.refsAt i ∨ (X i ∧ c.heap.length ≤ (c'.refsAt i).1 ∧ c.heap.length ≤ (c'.refsAt i).2 ∧
    (c'.refsAt i).1 < c'.heap.length ∧ (c'.refsAt i).2 < c'.heap.length ∧ c'.listAt (c'.refsAt i).1 = [] ∧ c'.listAt (c'.refsAt i).2 = [])

theorem Drop.refl (X : Nat → Prop) (c : Cells) : Drop X c c := ⟨rfl, le_refl _, fun _ _ => rfl, fun _ _ => Or.inl rfl⟩

theorem Drop.trans {X : Nat → Prop} (h : Drop X c c') (g : Drop X c' c'') : Drop X c c'' := by
  refine ⟨g.refs.trans h.refs, h.len.trans g.len, fun r hr => (g.same r (lt_of_lt_of_le hr h.len)).trans (h.same r hr), fun i hi => ?_⟩
  rcases g.fresh i (by rw [h.refs]; exact hi) with e | ⟨x, f1, f2, f3, f4, f5, f6⟩
  · rcases h.fresh i hi with e' | ⟨x, f1, f2, f3, f4, f5, f6⟩
    · exact Or.inl (e.trans e')
    · refine Or.inr ⟨x, ?_, ?_, ?_, ?_, ?_, ?_⟩ <;> rw [e]
      · exact f1
      · exact f2
      · exact lt_of_lt_of_le f3 g.len
      · exact lt_of_lt_of_le f4 g.len
      · rw [g.same _ f3]; exact f5
      · rw [g.same _ f4]; exact f6
  · exact Or.inr ⟨x, h.len.trans f1, h.len.trans f2, f3, f4, f5, f6⟩

theorem Drop.mono {X Y : Nat → Prop} (h : Drop X c c') (hXY : ∀ i, X i → Y i) : Drop Y c c' :=
  ⟨h.refs, h.len, h.same, fun i hi => (h.fresh i hi).imp id fun x => ⟨hXY i x.1, x.2⟩⟩

theorem Stored.clear {g : Int} (H : Stored c p) (h : p.clearCluster g = .ok p') : Stored (c.clear g) p' ∧ Drop (· = c.pos g) c (c.clear g) := by
  unfold ClusterPool.clearCluster at h
  cases h1 : pyModifyI p.clusters g OneCluster.clear with
  | error e => rw [h1] at h; cases h
  | ok cs =>
    rw [h1] at h
    rw [← Except.ok.inj h]
    obtain ⟨cl, h2, rfl⟩ := pyModifyI_some h1
    rw [← H.len, ← c.pos_eq] at h2 ⊢
    have hi : c.pos g < c.refs.length := by rw [H.len]; exact lt_of_some h2
    have at' : ∀ j, (c.clear g).refsAt j = if j = c.pos g then (c.heap.length, c.heap.length + 1) else c.refsAt j := by
      intro j
      simp only [Cells.refsAt, Cells.clear]
      by_cases e : j = c.pos g
      · rw [if_pos e, e, List.getElem?_set_self hi]; rfl
      · rw [if_neg e, List.getElem?_set_ne (Ne.symm e)]
    have old : ∀ r < c.heap.length, (c.clear g).listAt r = c.listAt r := fun r hr => listAt_append hr
    have n0 : (c.clear g).listAt c.heap.length = [] := listAt_append_new 0
    have n1 : (c.clear g).listAt (c.heap.length + 1) = [] := listAt_append_new 1
    have hl : (c.clear g).heap.length = c.heap.length + 2 := by simp [Cells.clear]
    have hrl : (c.clear g).refs.length = c.refs.length := by simp [Cells.clear]
    refine ⟨⟨by rw [hrl, H.len]; simp, ?_, ?_, ?_, ?_, ?_, ?_⟩, ⟨hrl, by omega, old, ?_⟩⟩
    · intro i hi'
      rw [hrl] at hi'
      rw [at', hl]
      split
      · exact ⟨by simp, by simp⟩
      · have := H.bound i hi'; omega
    · intro i cl' h
      have hil : i < c.refs.length := by rw [H.len]; simpa using lt_of_some h
      rw [at']
      by_cases e : i = c.pos g
      · subst e
        rw [List.getElem?_set_self (lt_of_some h2)] at h
        rw [if_pos rfl, ← Option.some.inj h]
        exact n0
      · rw [List.getElem?_set_ne (Ne.symm e)] at h
        rw [if_neg e, old _ (H.bound i hil).1, H.sites _ _ h]
    · intro i cl' h
      have hil : i < c.refs.length := by rw [H.len]; simpa using lt_of_some h
      rw [at']
      by_cases e : i = c.pos g
      · subst e
        rw [List.getElem?_set_self (lt_of_some h2)] at h
        rw [if_pos rfl, ← Option.some.inj h]
        exact n1
      · rw [List.getElem?_set_ne (Ne.symm e)] at h
        rw [if_neg e, old _ (H.bound i hil).2, H.bonds _ _ h]
    · intro i hi' j hj
      rw [hrl] at hi' hj
      have b1 := H.bound i hi'
      have b2 := H.bound j hj
      have := H.apart i hi' j hj
      rw [at', at']
      split <;> split <;> (try simp only) <;> omega
    · intro i hi' j hj
      rw [hrl] at hi' hj
      have b1 := H.bound i hi'
      have b2 := H.bound j hj
      have := H.injS i hi' j hj
      rw [at', at']
      split <;> split <;> (try simp only) <;> omega
    · intro i hi' j hj
      rw [hrl] at hi' hj
      have b1 := H.bound i hi'
      have b2 := H.bound j hj
      have := H.injB i hi' j hj
      rw [at', at']
      split <;> split <;> (try simp only) <;> omega
    · intro i hi'
      rw [at']
      by_cases e : i = c.pos g
      · right
        rw [if_pos e, hl]
        exact ⟨e, le_refl _, by simp, by simp, by simp, n0, n1⟩
      · left; rw [if_neg e]


/-! ### `init_clusters` -/

theorem Stored.create {sids bids : List Nat} (H : Stored c p) (h : p.createNewCluster sids bids lat = .ok (p', lat')) :
    Stored (c.create sids bids) p' := by
  unfold ClusterPool.createNewCluster at h
  cases h1 : ClusterPool.assignSites p.nextId sids lat with
  | error e => rw [h1] at h; cases h
  | ok l1 =>
  rw [h1] at h
  replace h : (ClusterPool.assignBonds p.nextId bids l1 >>= _) = _ := h
  cases h2 : ClusterPool.assignBonds p.nextId bids l1 with
  | error e => rw [h2] at h; cases h
  | ok l2 =>
  rw [h2] at h
  have hp := (Prod.mk.inj (Except.ok.inj h)).1
  rw [← hp]
  have hl : (c.create sids bids).heap.length = c.heap.length + 2 := by simp [Cells.create]
  have hrl : (c.create sids bids).refs.length = c.refs.length + 1 := by simp [Cells.create]
  have at' : ∀ j < c.refs.length + 1, (c.create sids bids).refsAt j = if j = c.refs.length then (c.heap.length, c.heap.length + 1) else c.refsAt j := by
    intro j hj
    simp only [Cells.refsAt, Cells.create]
    by_cases e : j = c.refs.length
    · rw [if_pos e, e, List.getElem?_append_right (le_refl _), Nat.sub_self]; rfl
    · rw [if_neg e, List.getElem?_append_left (by omega)]
  have old : ∀ r < c.heap.length, (c.create sids bids).listAt r = c.listAt r := fun r hr => listAt_append hr
  have n0 : (c.create sids bids).listAt c.heap.length = sids := listAt_append_new 0
  have n1 : (c.create sids bids).listAt (c.heap.length + 1) = bids := listAt_append_new 1
  have get : ∀ i cl, (p.clusters ++ [(⟨[] ++ sids, [] ++ bids, p.nextId, p.nextId⟩ : OneCluster)])[i]? = some cl →
      i < c.refs.length + 1 ∧ ((i = c.refs.length ∧ cl.siteIds = sids ∧ cl.bondIds = bids) ∨ (i ≠ c.refs.length ∧ i < c.refs.length ∧ p.clusters[i]? = some cl)) := by
    intro i cl h
    have hi : i < c.refs.length + 1 := by rw [H.len]; simpa using lt_of_some h
    refine ⟨hi, ?_⟩
    by_cases e : i = c.refs.length
    · left
      rw [e, H.len, List.getElem?_append_right (le_refl _), Nat.sub_self] at h
      refine ⟨e, ?_, ?_⟩ <;> rw [← Option.some.inj h] <;> rfl
    · right
      rw [List.getElem?_append_left (by rw [← H.len]; omega)] at h
      exact ⟨e, by omega, h⟩
  refine ⟨by rw [hrl, H.len]; simp, ?_, ?_, ?_, ?_, ?_, ?_⟩
  · intro i hi
    rw [hrl] at hi
    rw [at' i hi, hl]
    split
    · exact ⟨by simp, by simp⟩
    · have := H.bound i (by omega); omega
  · intro i cl h
    obtain ⟨hi, ⟨e, h1, _⟩ | ⟨e, hl, h1⟩⟩ := get i cl h
    · rw [at' i hi, if_pos e, h1]; exact n0
    · rw [at' i hi, if_neg e, old _ (H.bound i hl).1, H.sites _ _ h1]
  · intro i cl h
    obtain ⟨hi, ⟨e, _, h1⟩ | ⟨e, hl, h1⟩⟩ := get i cl h
    · rw [at' i hi, if_pos e, h1]; exact n1
    · rw [at' i hi, if_neg e, old _ (H.bound i hl).2, H.bonds _ _ h1]
  · intro i hi j hj
    rw [hrl] at hi hj
    have b1 := H.bound i
    have b2 := H.bound j
    have := H.apart i
    have := fun a b => this a j b
    rw [at' i hi, at' j hj]
    split <;> split <;> (try simp only) <;> omega
  · intro i hi j hj
    rw [hrl] at hi hj
    have b1 := H.bound i
    have b2 := H.bound j
    have := H.injS i
    have := fun a b => this a j b
    rw [at' i hi, at' j hj]
    split <;> split <;> (try simp only) <;> omega
  · intro i hi j hj
    rw [hrl] at hi hj
    have b1 := H.bound i
    have b2 := H.bound j
    have := H.injB i
    have := fun a b => this a j b
    rw [at' i hi, at' j hj]
    split <;> split <;> (try simp only) <;> omega

theorem Stored.empty (h : List (List Nat)) : Stored ⟨h, []⟩ ClusterPool.empty :=
  ⟨rfl, fun _ h => absurd h (Nat.not_lt_zero _), fun _ _ h => by simp [ClusterPool.empty] at h, fun _ _ h => by simp [ClusterPool.empty] at h,
    fun _ h => absurd h (Nat.not_lt_zero _), fun _ h => absurd h (Nat.not_lt_zero _), fun _ h => absurd h (Nat.not_lt_zero _)⟩

theorem Stored.initLoop (bs : List Nat) : ∀ {c : Cells} {pl pl' : ClusterPool × Lattice}, Stored c pl.1 → initClustersLoop bs pl = .ok pl' →
    Stored (bs.foldl (fun c bb => c.create [] [bb]) c) pl'.1 := by
  induction bs with
  | nil => intro c pl pl' H h; rw [← Except.ok.inj h]; exact H
  | cons b bs ih =>
    intro c pl pl' H h
    simp only [initClustersLoop] at h
    cases h1 : pl.1.createNewCluster [] [b] pl.2 with
    | error e => rw [h1] at h; cases h
    | ok q => rw [h1] at h; exact ih (Stored.create H (p' := q.1) (lat' := q.2) h1) h

/-- `init_clusters` makes new lists for all clusters and leaves the old ones alone. -/
theorem Stored.init {pl : ClusterPool × Lattice} (c : Cells) (h : initClusters lat = .ok pl) : Stored (c.init lat.bondCount) pl.1 :=
  Stored.initLoop _ (Stored.empty c.heap) h

theorem create_loop (bs : List Nat) : ∀ c : Cells, c.heap.length ≤ (bs.foldl (fun c bb => c.create [] [bb]) c).heap.length ∧
    (∀ r < c.heap.length, (bs.foldl (fun c bb => c.create [] [bb]) c).listAt r = c.listAt r) ∧
    ∀ x ∈ (bs.foldl (fun c bb => c.create [] [bb]) c).refs, x ∈ c.refs ∨ (c.heap.length ≤ x.1 ∧ c.heap.length ≤ x.2) := by
  induction bs with
  | nil => intro c; exact ⟨le_refl _, fun _ _ => rfl, fun _ h => Or.inl h⟩
  | cons b bs ih =>
    intro c
    obtain ⟨h1, h2, h3⟩ := ih (c.create [] [b])
    have hl : (c.create [] [b]).heap.length = c.heap.length + 2 := by simp [Cells.create]
    refine ⟨by simp only [List.foldl_cons]; omega, fun r hr => (h2 r (by omega)).trans (listAt_append hr), fun x hx => ?_⟩
    rcases h3 x hx with h | ⟨h, h'⟩
    · rcases List.mem_append.1 h with h | h
      · exact Or.inl h
      · rw [List.mem_singleton.1 h]; exact Or.inr ⟨le_refl _, by simp⟩
    · exact Or.inr ⟨by omega, by omega⟩

theorem init_old (c : Cells) (n : Nat) : c.heap.length ≤ (c.init n).heap.length ∧ (∀ r < c.heap.length, (c.init n).listAt r = c.listAt r) ∧
    ∀ i < (c.init n).refs.length, c.heap.length ≤ ((c.init n).refsAt i).1 ∧ c.heap.length ≤ ((c.init n).refsAt i).2 := by
  obtain ⟨h1, h2, h3⟩ := create_loop (List.range n) { c with refs := [] }
  refine ⟨h1, h2, fun i hi => ?_⟩
  have : (c.init n).refsAt i ∈ (c.init n).refs := by
    simp only [Cells.refsAt]
    rw [List.getElem?_eq_getElem hi]
    exact List.getElem_mem hi
  rcases h3 _ this with h | h
  · exact absurd h (List.not_mem_nil)
  · exact h

/-! ### The loops of a placement -/

/-- A placement with the member lists is a placement. -/
theorem assignLoopC_fst {k : Nat} {root : Int} (bs : List Nat) : ∀ (S : Perc α) (c : Cells),
    (Perc.assignLoopC k root bs (S, c)).map Prod.fst = Perc.assignLoop k root bs S := by
  induction bs with
  | nil => intro S c; rfl
  | cons b bs ih =>
    intro S c
    simp only [Perc.assignLoopC, Perc.assignLoop]
    cases S.lat.getBondGid b with
    | error e => rfl
    | ok g =>
    show (if g = root then _ else _ : Py (Perc α × Cells)).map _ = if g = root then _ else _
    by_cases hg : g = root
    · rw [if_pos hg, if_pos hg]
      cases S.lat.setSiteGid k root with
      | error e => rfl
      | ok lat =>
      show (S.pool.addSite root k >>= _).map _ = (S.pool.addSite root k >>= _)
      cases S.pool.addSite root k with
      | error e => rfl
      | ok pool =>
      show (Perc.getNeighborSite { S with lat := lat, pool := pool } k b >>= _).map _ = (Perc.getNeighborSite { S with lat := lat, pool := pool } k b >>= _)
      cases Perc.getNeighborSite { S with lat := lat, pool := pool } k b with
      | error e => rfl
      | ok n =>
      show (lat.getSiteGid n >>= _).map _ = (lat.getSiteGid n >>= _)
      cases lat.getSiteGid n with
      | error e => rfl
      | ok ng =>
      show (if ng ≥ 0 then _ else _ : Py (Perc α × Cells)).map _ = if ng ≥ 0 then _ else _
      by_cases hn : ng ≥ 0
      · rw [if_pos hn, if_pos hn]
        show (getRelativeIndex lat n k >>= _).map _ = (getRelativeIndex lat n k >>= _)
        cases getRelativeIndex lat n k with
        | error e => rfl
        | ok r =>
        show (lat.setRelativeIndex k r >>= _).map _ = (lat.setRelativeIndex k r >>= _)
        cases lat.setRelativeIndex k r with
        | error e => rfl
        | ok lat2 => exact ih _ _
      · rw [if_neg hn, if_neg hn]; exact ih _ _
    · rw [if_neg hg, if_neg hg]; exact ih _ _

theorem mergeLoopC_fst {k : Nat} {root : Int} (bs : List Nat) : ∀ (S : Perc α) (c : Cells),
    (Perc.mergeLoopC k root bs (S, c)).map Prod.fst = Perc.mergeLoop k root bs S := by
  induction bs with
  | nil => intro S c; rfl
  | cons b bs ih =>
    intro S c
    simp only [Perc.mergeLoopC, Perc.mergeLoop]
    cases S.lat.getBondGid b with
    | error e => rfl
    | ok g =>
    show (if g = root then _ else _ : Py (Perc α × Cells)).map _ = if g = root then _ else _
    by_cases hg : g = root
    · rw [if_pos hg, if_pos hg]; exact ih _ _
    · rw [if_neg hg, if_neg hg]
      cases S.relabelRelativeIndices k b with
      | error e => rfl
      | ok S1 =>
      show (S1.pool.mergeClusterWith root g S1.lat >>= _).map _ = (S1.pool.mergeClusterWith root g S1.lat >>= _)
      cases S1.pool.mergeClusterWith root g S1.lat with
      | error e => rfl
      | ok r => exact ih _ _

theorem clearLoopC_fst {root : Int} (gs : List Int) : ∀ (p : ClusterPool) (c : Cells),
    (Perc.clearLoopC root gs (p, c)).map Prod.fst = Perc.clearLoop root gs p := by
  induction gs with
  | nil => intro p c; rfl
  | cons g gs ih =>
    intro p c
    simp only [Perc.clearLoopC, Perc.clearLoop]
    by_cases hg : g = root
    · rw [if_pos hg, if_pos hg]; exact ih _ _
    · rw [if_neg hg, if_neg hg]
      cases p.clearCluster g with
      | error e => rfl
      | ok q => exact ih _ _

theorem mergeClustersV2C_fst (S : Perc α) (c : Cells) (k : Nat) (bs : List Nat) :
    (S.mergeClustersV2C env c k bs).map (fun r => (r.1, r.2.2)) = S.mergeClustersV2 env k bs := by
  simp only [Perc.mergeClustersV2C, Perc.mergeClustersV2]
  cases Perc.uniqueBondLoop S.lat bs [] with
  | error e => rfl
  | ok ub =>
  show (Perc.getBondGids env S ub >>= _).map _ = (Perc.getBondGids env S ub >>= _)
  cases Perc.getBondGids env S ub with
  | error e => rfl
  | ok gids =>
  show (pyGet gids 0 >>= _).map _ = (pyGet gids 0 >>= _)
  cases pyGet gids 0 with
  | error e => rfl
  | ok r0 =>
  show (Perc.chooseRoot _ _ _ _ _ _ >>= _).map _ = (Perc.chooseRoot _ _ _ _ _ _ >>= _)
  cases Perc.chooseRoot S.pool (S.afterWrapping && decide (S.wrappingId ∈ gids)) S.wrappingId gids r0 0 with
  | error e => rfl
  | ok root =>
  show (Perc.assignLoopC k root ub (S, c) >>= _).map _ = (Perc.assignLoop k root ub S >>= _)
  rw [← assignLoopC_fst ub S c]
  cases Perc.assignLoopC k root ub (S, c) with
  | error e => rfl
  | ok w =>
  show (Perc.mergeLoopC k root ub (w.1, w.2) >>= _).map _ = (Perc.mergeLoop k root ub w.1 >>= _)
  rw [← mergeLoopC_fst ub w.1 w.2]
  cases Perc.mergeLoopC k root ub (w.1, w.2) with
  | error e => rfl
  | ok w2 =>
  show (Perc.clearLoopC root gids (w2.1.pool, w2.2) >>= _).map _ = (Perc.clearLoop root gids w2.1.pool >>= _)
  rw [← clearLoopC_fst gids w2.1.pool w2.2]
  cases Perc.clearLoopC root gids (w2.1.pool, w2.2) with
  | error e => rfl
  | ok w3 => rfl

theorem placeSelectedC_fst (S : Perc α) (c : Cells) (k : Nat) : (S.placeSelectedC env c k).map Prod.fst = S.placeSelected env k := by
  simp only [Perc.placeSelectedC, Perc.placeSelected]
  cases S.lat.initRelativeIndex k with
  | error e => rfl
  | ok lat =>
  show (lat.getNeighborBonds k >>= _).map _ = (lat.getNeighborBonds k >>= _)
  cases lat.getNeighborBonds k with
  | error e => rfl
  | ok bs =>
  show (Perc.entropySubtract env { S with lat := lat } k >>= _).map _ = (Perc.entropySubtract env { S with lat := lat } k >>= _)
  cases Perc.entropySubtract env { S with lat := lat } k with
  | error e => rfl
  | ok S1 =>
  show (S1.mergeClustersV2C env c k bs >>= _).map _ = (S1.mergeClustersV2 env k bs >>= _)
  rw [← mergeClustersV2C_fst S1 c k bs]
  cases S1.mergeClustersV2C env c k bs with
  | error e => rfl
  | ok r =>
  show (r.1.trackLargest r.2.2 >>= _).map _ = (r.1.trackLargest r.2.2 >>= _)
  cases r.1.trackLargest r.2.2 with
  | error e => rfl
  | ok S2 =>
  show (S2.entropyAdd env r.2.2 >>= _).map _ = S2.entropyAdd env r.2.2
  cases S2.entropyAdd env r.2.2 with
  | error e => rfl
  | ok S3 => rfl

theorem placeOneSiteC_fst (S : Perc α) (c : Cells) (d : Draw) :
    (S.placeOneSiteC env v c d).map (fun r => (r.1, r.2.2)) = S.placeOneSite env v d := by
  simp only [Perc.placeOneSiteC, Perc.placeOneSite]
  cases S.selectSite v d with
  | error e => rfl
  | ok r =>
  obtain ⟨S1, f⟩ := r
  cases f with
  | success =>
    have aux : ∀ T : Perc α, (match T.selected with
          | none => .error .typeError
          | some k => T.placeSelectedC env c k >>= fun w => pure (w.1, w.2, true) : Py (Perc α × Cells × Bool)).map (fun r => (r.1, r.2.2)) =
        match T.selected with
          | none => .error .typeError
          | some k => T.placeSelected env k >>= fun S => pure (S, true) := by
      intro T
      cases T.selected with
      | none => rfl
      | some k =>
        show (T.placeSelectedC env c k >>= _).map _ = (T.placeSelected env k >>= _)
        rw [← placeSelectedC_fst T c k]
        cases T.placeSelectedC env c k with
        | error e => rfl
        | ok w => rfl
    exact aux { S1 with selectionFlag := some .success }
  | currentSiteNotEmpty => rfl
  | emptySiteList => rfl

end SqPerc
