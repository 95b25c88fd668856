import Verif.Props.L1L2
import Mathlib.SetTheory.Cardinal.Finite
/-
Property C70: the selection probabilities of L1 and L2.
-/
namespace SqPerc

variable {α : Type} {L : Nat} {env : Env α} {v : Variant} {S S' : Perc α}

/-- The next call of `place_one_site`, with the random numbers `d`, places the site `k`. -/
def Picks (env : Env α) (v : Variant) (S : Perc α) (k : Nat) (d : Draw) : Prop :=
  ∃ S' b, S.placeOneSite env v d = .ok (S', b) ∧ S'.selectionFlag = some .success ∧ S'.selected = some k

/-- The candidates of L1 and L2: `site_ids_indices[current_idx:]`. -/
def candidates (S : Perc α) : List Nat := S.siteIds.drop S.currentIdx

/-- The number of outcomes of the two random numbers (a position in the list of candidates and one of four directions) with which the next
call places the site `k`. -/
noncomputable def pickCount (env : Env α) (v : Variant) (S : Perc α) (k : Nat) : Nat :=
  Nat.card {p : Fin (candidates S).length × Fin 4 // Picks env v S k ⟨p.1.1, p.2.1⟩}

theorem dirOf_inj {a b : Nat} (ha : a < 4) (hb : b < 4) (h : dirOf a = dirOf b) : a = b := by
  have : ∀ a b : Fin 4, dirOf a.1 = dirOf b.1 → a = b := by decide
  exact congrArg Fin.val (this ⟨a, ha⟩ ⟨b, hb⟩ h)

theorem dirOf_surj (dir : Dir) : ∃ b : Fin 4, dirOf b.1 = dir := by
  cases dir
  · exact ⟨0, rfl⟩
  · exact ⟨1, rfl⟩
  · exact ⟨2, rfl⟩
  · exact ⟨3, rfl⟩

/-- Counting pairs of a candidate and a direction instead of the random numbers. -/
theorem pickCount_pairs {k : Nat} (hnd : (candidates S).Nodup) (hlen : S.siteIds.length - S.currentIdx = (candidates S).length)
    {P : Nat → Dir → Prop} (hP : ∀ d x, S.drawn d = some x → (Picks env v S k d ↔ P x (dirOf d.b))) :
    pickCount env v S k = Nat.card {p : Nat × Dir // p.1 ∈ candidates S ∧ P p.1 p.2} := by
  have hdr : ∀ p : Fin (candidates S).length × Fin 4, S.drawn ⟨p.1.1, p.2.1⟩ = some ((candidates S)[p.1.1]) := by
    intro p
    unfold Perc.drawn
    rw [show (Draw.mk p.1.1 p.2.1).a = p.1.1 from rfl, hlen, Nat.mod_eq_of_lt p.1.2]
    exact List.getElem?_eq_getElem p.1.2
  refine Nat.card_congr (Equiv.ofBijective (fun p => ⟨((candidates S)[p.1.1.1], dirOf p.1.2.1), List.getElem_mem _, (hP _ _ (hdr p.1)).1 p.2⟩) ⟨?_, ?_⟩)
  · rintro ⟨⟨a, b⟩, h⟩ ⟨⟨a', b'⟩, h'⟩ e
    have e := congrArg Subtype.val e
    obtain ⟨e1, e2⟩ := Prod.mk.inj e
    have e1 := (List.Nodup.getElem_inj_iff hnd).1 e1
    have e2 := dirOf_inj b.2 b'.2 e2
    exact Subtype.ext (Prod.ext (Fin.ext e1) (Fin.ext e2))
  · rintro ⟨⟨x, dir⟩, hx, hp⟩
    obtain ⟨i, hi, rfl⟩ := List.getElem_of_mem hx
    obtain ⟨b, rfl⟩ := dirOf_surj dir
    exact ⟨⟨(⟨i, hi⟩, b), (hP _ _ (hdr (⟨i, hi⟩, b))).2 hp⟩, rfl⟩

theorem picks_det {d : Draw} {k : Nat} {b : Bool} (h : S.placeOneSite env v d = .ok (S', b)) :
    Picks env v S k d ↔ S'.selectionFlag = some .success ∧ S'.selected = some k := by
  constructor
  · rintro ⟨S2, b2, e, h1, h2⟩
    rw [h] at e
    obtain ⟨rfl, rfl⟩ := Prod.mk.inj (Except.ok.inj e)
    exact ⟨h1, h2⟩
  · rintro ⟨h1, h2⟩; exact ⟨S', b, h, h1, h2⟩

/-- The neighbours of `k` from which L1 can reach it: occupied candidates. -/
def Feeders (L : Nat) (S : Perc α) (k : Nat) : Type := {dir : Dir // S.Occ (nbr L k dir) ∧ nbr L k dir ∈ candidates S}

/-- The directions from which L2 can reach `k` in two steps: both sites occupied, the second one a candidate, and the step from it to the
first one does not cross the periodic boundary. -/
def FarFeeders (L : Nat) (S : Perc α) (k : Nat) : Type :=
  {dir : Dir // S.Occ (nbr L k dir) ∧ S.Occ (nbr L (nbr L k dir) dir) ∧ nbr L (nbr L k dir) dir ∈ candidates S ∧
    ¬ Crosses L (nbr L (nbr L k dir) dir) dir.opp}

theorem DefReach.window (h : DefReach env v L S) (hv : v = .l1 ∨ v = .l2) : ∃ n, Window L S n := by
  have hs := h.live.sel
  rcases hv with rfl | rfl
  · exact ⟨_, hs⟩
  · exact ⟨_, hs.1⟩

theorem card_dir : Nat.card Dir = 4 := by
  have : (Fin 4) ≃ Dir := Equiv.ofBijective (fun b => dirOf b.1) ⟨fun a b h => Fin.ext (dirOf_inj a.2 b.2 h), dirOf_surj⟩
  rw [← Nat.card_congr this, Nat.card_eq_fintype_card, Fintype.card_fin]

instance : Finite Dir := Nat.finite_of_card_ne_zero (by rw [card_dir]; decide)

/-- C70: L1 places the empty site `k` with `4 + f` of the `4 * w` equally likely outcomes of its two random numbers, where `w` is the number of
candidates and `f` the number of directions in which `k` has an occupied neighbour that is still a candidate. -/
theorem C70_l1 (h : DefReach env .l1 L S) {k : Nat} (hk : k < L * L) (ho : ¬ S.Occ k) :
    pickCount env .l1 S k = 4 + Nat.card (Feeders L S k) := by
  obtain ⟨A, M, hA⟩ := h.live.sim
  obtain ⟨n, W⟩ := h.window (Or.inl rfl)
  have hkc : k ∈ candidates S := W.un k hk ho
  have hP : ∀ d x, S.drawn d = some x → (Picks env .l1 S k d ↔ x = k ∨ S.Occ x ∧ nbr L x (dirOf d.b) = k) := by
    intro d x hx
    obtain ⟨S', b, e, _⟩ := h.live.place d
    rw [picks_det e]
    rcases l1_rule M hA.inv e with ⟨h1, _⟩ | ⟨_, x', hx', _, hc⟩
    · exfalso
      unfold Perc.drawn at hx
      rw [List.drop_eq_nil_of_le (by rw [W.len]; exact h1)] at hx
      cases hx
    · obtain rfl := Option.some.inj (hx.symm.trans hx')
      rcases hc with ⟨a1, a2, a3, _⟩ | ⟨a1, a2, a3, a4, _⟩ | ⟨a1, a2, a3, _⟩
      · rw [a2, a3]
        exact ⟨fun h => Or.inl (Option.some.inj h.2), fun h => ⟨rfl, by rcases h with rfl | h; rfl; exact absurd h.1 a1⟩⟩
      · rw [a3, a4]
        exact ⟨fun h => Or.inr ⟨a1, Option.some.inj h.2⟩, fun h => ⟨rfl, by
          rcases h with rfl | h
          · exact absurd a1 ho
          · rw [h.2]⟩⟩
      · rw [a3]
        refine ⟨fun h => (by cases h.1), fun h => ?_⟩
        rcases h with rfl | h
        · exact absurd a1 ho
        · rw [h.2] at a2; exact absurd a2 ho
  rw [pickCount_pairs (P := fun x dir => x = k ∨ S.Occ x ∧ nbr L x dir = k) W.nd (by unfold candidates; rw [List.length_drop]) hP, ← card_dir]
  have : Finite (Feeders L S k) := inferInstanceAs (Finite {dir : Dir // _})
  rw [← Nat.card_sum]
  refine (Nat.card_congr (Equiv.ofBijective (fun t : Dir ⊕ Feeders L S k => (match t with
    | .inl dir => ⟨(k, dir), hkc, Or.inl rfl⟩
    | .inr f => ⟨(nbr L k f.1, f.1.opp), f.2.2, Or.inr ⟨f.2.1, nbr_opp hk f.1⟩⟩ :
    {p : Nat × Dir // p.1 ∈ candidates S ∧ (p.1 = k ∨ S.Occ p.1 ∧ nbr L p.1 p.2 = k)})) ⟨?_, ?_⟩)).symm
  · rintro (a | a) (b | b) e
    · have e := congrArg Subtype.val e
      rw [(Prod.mk.inj e).2]
    · have e := congrArg Subtype.val e
      have := (Prod.mk.inj e).1
      exact absurd (this ▸ b.2.1) ho
    · have e := congrArg Subtype.val e
      have := (Prod.mk.inj e).1
      exact absurd (this ▸ a.2.1) ho
    · have e := congrArg Subtype.val e
      have := congrArg Dir.opp (Prod.mk.inj e).2
      rw [Dir.opp_opp, Dir.opp_opp] at this
      exact congrArg Sum.inr (Subtype.ext this)
  · rintro ⟨⟨x, dir⟩, hx, hp⟩
    rcases hp with rfl | ⟨h1, h2⟩
    · exact ⟨.inl dir, rfl⟩
    · have hxl : x < L * L := W.lt x (List.mem_of_mem_drop hx)
      have e : nbr L k dir.opp = x := by rw [← h2]; exact nbr_opp hxl dir
      refine ⟨.inr ⟨dir.opp, by rw [e]; exact ⟨h1, hx⟩⟩, Subtype.ext (Prod.ext e ?_)⟩
      exact Dir.opp_opp dir

/-- C70: L2 places the empty site `k` with `4 + f + g` of the `4 * w` equally likely outcomes, where `w` is the number of candidates, `f` the
number of directions in which `k` has an occupied neighbour that is still a candidate, and `g` the number of directions in which the next two
sites are occupied, the second one is still a candidate, and the step from the second one to the first does not cross the boundary. -/
theorem C70_l2 (h : DefReach env .l2 L S) {k : Nat} (hk : k < L * L) (ho : ¬ S.Occ k) :
    pickCount env .l2 S k = 4 + Nat.card (Feeders L S k) + Nat.card (FarFeeders L S k) := by
  obtain ⟨A, M, hA⟩ := h.live.sim
  obtain ⟨n, W⟩ := h.window (Or.inr rfl)
  have hkc : k ∈ candidates S := W.un k hk ho
  have hP : ∀ d x, S.drawn d = some x → (Picks env .l2 S k d ↔ x = k ∨ S.Occ x ∧ nbr L x (dirOf d.b) = k ∨
      S.Occ x ∧ S.Occ (nbr L x (dirOf d.b)) ∧ ¬ Crosses L x (dirOf d.b) ∧ nbr L (nbr L x (dirOf d.b)) (dirOf d.b) = k) := by
    intro d x hx
    obtain ⟨S', b, e, _⟩ := h.live.place d
    rw [picks_det e]
    rcases l2_rule M hA.inv e with ⟨h1, _⟩ | ⟨_, x', hx', hxl, hc⟩
    · exfalso
      unfold Perc.drawn at hx
      rw [List.drop_eq_nil_of_le (by rw [W.len]; exact h1)] at hx
      cases hx
    · obtain rfl := Option.some.inj (hx.symm.trans hx')
      have hz : S.Occ x → Crosses L x (dirOf d.b) → S.Occ (zOf L x (nbr L x (dirOf d.b))) := by
        intro o1 hcr
        by_cases h2 : 2 ≤ L
        · rw [zOf_crossing h2 hxl _ hcr]; exact o1
        · have hL1 : L = 1 := by
            rcases Nat.eq_zero_or_pos L with rfl | h0
            · simp at hxl
            · omega
          subst hL1
          have := (siteBeyond_mk (V := A.V) hxl (nbr_lt hxl (dirOf d.b))).2
          have : zOf 1 x (nbr 1 x (dirOf d.b)) = x := by omega
          rw [this]; exact o1
      rcases hc with ⟨a1, a2, a3, _⟩ | ⟨a1, a2, a3, a4, _⟩ | ⟨a1, a2, a3, a4, a5, _⟩ | ⟨a1, a2, a3, a4, _⟩
      · rw [a2, a3]
        refine ⟨fun h => Or.inl (Option.some.inj h.2), fun h => ⟨rfl, ?_⟩⟩
        rcases h with rfl | h | h
        · rfl
        · exact absurd h.1 a1
        · exact absurd h.1 a1
      · rw [a3, a4]
        refine ⟨fun h => Or.inr (Or.inl ⟨a1, Option.some.inj h.2⟩), fun h => ⟨rfl, ?_⟩⟩
        rcases h with rfl | h | h
        · exact absurd a1 ho
        · rw [h.2]
        · exact absurd h.2.1 a2
      · have hcr : ¬ Crosses L x (dirOf d.b) := fun hcr => a3 (hz a1 hcr)
        rw [a4, a5, zOf_ahead hxl _ hcr]
        refine ⟨fun h => Or.inr (Or.inr ⟨a1, a2, hcr, Option.some.inj h.2⟩), fun h => ⟨rfl, ?_⟩⟩
        rcases h with rfl | h | h
        · exact absurd a1 ho
        · exact absurd (h.2 ▸ a2) ho
        · rw [h.2.2.2]
      · rw [a4]
        refine ⟨fun h => (by cases h.1), fun h => ?_⟩
        rcases h with rfl | h | h
        · exact absurd a1 ho
        · exact absurd (h.2 ▸ a2) ho
        · rw [zOf_ahead hxl _ h.2.2.1, h.2.2.2] at a3
          exact absurd a3 ho
  rw [pickCount_pairs (P := fun x dir => x = k ∨ S.Occ x ∧ nbr L x dir = k ∨
      S.Occ x ∧ S.Occ (nbr L x dir) ∧ ¬ Crosses L x dir ∧ nbr L (nbr L x dir) dir = k)
    W.nd (by unfold candidates; rw [List.length_drop]) hP, ← card_dir]
  have : Finite (Feeders L S k) := inferInstanceAs (Finite {dir : Dir // _})
  have : Finite (FarFeeders L S k) := inferInstanceAs (Finite {dir : Dir // _})
  rw [← Nat.card_sum, ← Nat.card_sum]
  have hback : ∀ dir : Dir, nbr L (nbr L (nbr L k dir) dir) dir.opp = nbr L k dir := fun dir => nbr_opp (nbr_lt hk dir) dir
  refine (Nat.card_congr (Equiv.ofBijective (fun t : (Dir ⊕ Feeders L S k) ⊕ FarFeeders L S k => (match t with
    | .inl (.inl dir) => ⟨(k, dir), hkc, Or.inl rfl⟩
    | .inl (.inr f) => ⟨(nbr L k f.1, f.1.opp), f.2.2, Or.inr (Or.inl ⟨f.2.1, nbr_opp hk f.1⟩)⟩
    | .inr g => ⟨(nbr L (nbr L k g.1) g.1, g.1.opp), g.2.2.2.1, Or.inr (Or.inr ⟨g.2.2.1, by rw [hback]; exact g.2.1, g.2.2.2.2, by
        rw [hback]; exact nbr_opp hk g.1⟩)⟩ :
    {p : Nat × Dir // p.1 ∈ candidates S ∧ (p.1 = k ∨ S.Occ p.1 ∧ nbr L p.1 p.2 = k ∨
      S.Occ p.1 ∧ S.Occ (nbr L p.1 p.2) ∧ ¬ Crosses L p.1 p.2 ∧ nbr L (nbr L p.1 p.2) p.2 = k)})) ⟨?_, ?_⟩)).symm
  · have opp_inj : ∀ {a b : Dir}, a.opp = b.opp → a = b := by
      intro a b e
      have := congrArg Dir.opp e
      rwa [Dir.opp_opp, Dir.opp_opp] at this
    -- one step from the first component tells the three kinds apart
    have hmix : ∀ (f : Feeders L S k) (g : FarFeeders L S k), (nbr L k f.1, f.1.opp) ≠ (nbr L (nbr L k g.1) g.1, g.1.opp) := by
      intro f g e
      have e1 := (Prod.mk.inj e).1
      have e2 := opp_inj (Prod.mk.inj e).2
      have h1 := hback g.1
      rw [← e1, e2, nbr_opp hk] at h1
      exact ho (h1 ▸ g.2.1)
    rintro ((a | a) | a) ((b | b) | b) e <;> have e := congrArg Subtype.val e
    · rw [(Prod.mk.inj e).2]
    · have := (Prod.mk.inj e).1
      exact absurd (this ▸ b.2.1) ho
    · have := (Prod.mk.inj e).1
      exact absurd (this ▸ b.2.2.1) ho
    · have := (Prod.mk.inj e).1
      exact absurd (this ▸ a.2.1) ho
    · have := opp_inj (Prod.mk.inj e).2
      exact congrArg (fun t => Sum.inl (Sum.inr t)) (Subtype.ext this)
    · exact absurd e (hmix a b)
    · have := (Prod.mk.inj e).1
      exact absurd (this ▸ a.2.2.1) ho
    · exact absurd e.symm (hmix b a)
    · have := opp_inj (Prod.mk.inj e).2
      exact congrArg Sum.inr (Subtype.ext this)
  · rintro ⟨⟨x, dir⟩, hx, hp⟩
    have hxl : x < L * L := W.lt x (List.mem_of_mem_drop hx)
    rcases hp with rfl | ⟨h1, h2⟩ | ⟨h1, h2, h3, h4⟩
    · exact ⟨.inl (.inl dir), rfl⟩
    · have e : nbr L k dir.opp = x := by rw [← h2]; exact nbr_opp hxl dir
      exact ⟨.inl (.inr ⟨dir.opp, by rw [e]; exact ⟨h1, hx⟩⟩), Subtype.ext (Prod.ext e (Dir.opp_opp dir))⟩
    · have e : nbr L k dir.opp = nbr L x dir := by rw [← h4]; exact nbr_opp (nbr_lt hxl dir) dir
      have e' : nbr L (nbr L x dir) dir.opp = x := nbr_opp hxl dir
      refine ⟨.inr ⟨dir.opp, ?_⟩, Subtype.ext (Prod.ext (by show nbr L (nbr L k dir.opp) dir.opp = x; rw [e, e']) (Dir.opp_opp dir))⟩
      rw [e, e', Dir.opp_opp]
      exact ⟨h2, h1, hx, h3⟩

/-- The site a call places is an empty site of the lattice. -/
theorem picks_empty (h : DefReach env v L S) (hv : v = .l1 ∨ v = .l2) {d : Draw} {k : Nat} (hp : Picks env v S k d) : k < L * L ∧ ¬ S.Occ k := by
  obtain ⟨A, M, hA⟩ := h.live.sim
  obtain ⟨S', b, e, h1, h2⟩ := hp
  rcases hv with rfl | rfl
  · rcases l1_rule M hA.inv e with ⟨_, a, _⟩ | ⟨_, x, _, hx, ⟨a1, _, a3, _⟩ | ⟨_, a2, _, a4, _⟩ | ⟨_, _, a3, _⟩⟩
    · rw [h1] at a; cases a
    · rw [h2] at a3; obtain rfl := Option.some.inj a3; exact ⟨hx, a1⟩
    · rw [h2] at a4; obtain rfl := Option.some.inj a4; exact ⟨nbr_lt hx _, a2⟩
    · rw [h1] at a3; cases a3
  · rcases l2_rule M hA.inv e with ⟨_, a, _⟩ | ⟨_, x, _, hx, ⟨a1, _, a3, _⟩ | ⟨_, a2, _, a4, _⟩ | ⟨_, _, a3, _, a5, _⟩ | ⟨_, _, _, a4, _⟩⟩
    · rw [h1] at a; cases a
    · rw [h2] at a3; obtain rfl := Option.some.inj a3; exact ⟨hx, a1⟩
    · rw [h2] at a4; obtain rfl := Option.some.inj a4; exact ⟨nbr_lt hx _, a2⟩
    · rw [h2] at a5; obtain rfl := Option.some.inj a5
      exact ⟨(siteBeyond_mk (V := A.V) hx (nbr_lt hx _)).2, a3⟩
    · rw [h1] at a4; cases a4

/-- C70: the counts are a probability law: the `4 * w` outcomes are divided between the sites of the lattice (occupied ones get none) and the
outcomes with which the call places nothing. -/
theorem C70_total (h : DefReach env v L S) (hv : v = .l1 ∨ v = .l2) :
    (∀ k, S.Occ k → pickCount env v S k = 0) ∧
    ∑ k : Fin (L * L), pickCount env v S k.1 +
      Nat.card {p : Fin (candidates S).length × Fin 4 // ∀ k, ¬ Picks env v S k ⟨p.1.1, p.2.1⟩} = 4 * (candidates S).length := by
  constructor
  · intro k hk
    have : IsEmpty {p : Fin (candidates S).length × Fin 4 // Picks env v S k ⟨p.1.1, p.2.1⟩} := ⟨fun p => (picks_empty h hv p.2).2 hk⟩
    exact Nat.card_of_isEmpty
  · have e1 : Nat.card (Fin (candidates S).length × Fin 4) = 4 * (candidates S).length := by
      rw [Nat.card_prod, Nat.card_eq_fintype_card, Nat.card_eq_fintype_card, Fintype.card_fin, Fintype.card_fin, Nat.mul_comm]
    rw [← e1]
    unfold pickCount
    rw [← Nat.card_sigma, ← Nat.card_sum]
    refine Nat.card_congr (Equiv.ofBijective (fun t => match t with | .inl t => t.2.1 | .inr t => t.1) ⟨?_, ?_⟩)
    · rintro (⟨k, p, hp⟩ | ⟨p, hp⟩) (⟨j, q, hq⟩ | ⟨q, hq⟩) e
      · obtain rfl : p = q := e
        obtain ⟨S', b, e, h1, h2⟩ := hp
        obtain rfl : k = j := Fin.ext (Option.some.inj (h2.symm.trans ((picks_det e).1 hq).2))
        rfl
      · obtain rfl : p = q := e
        exact absurd hp (hq _)
      · obtain rfl : p = q := e
        exact absurd hq (hp _)
      · obtain rfl : p = q := e
        rfl
    · intro p
      by_cases hp : ∃ k, Picks env v S k ⟨p.1.1, p.2.1⟩
      · obtain ⟨k, hk⟩ := hp
        exact ⟨.inl ⟨⟨k, (picks_empty h hv hk).1⟩, p, hk⟩, rfl⟩
      · exact ⟨.inr ⟨p, fun k hk => hp ⟨k, hk⟩⟩, rfl⟩

/-- C70: while no candidate is occupied (in particular for the first site of a run), every empty site is equally likely. -/
theorem C70_uniform (h : DefReach env v L S) (hv : v = .l1 ∨ v = .l2) (hc : ∀ s, S.Occ s → s ∉ candidates S) {k : Nat} (hk : k < L * L)
    (ho : ¬ S.Occ k) : pickCount env v S k = 4 := by
  have h1 : Nat.card (Feeders L S k) = 0 := by
    have : IsEmpty (Feeders L S k) := ⟨fun f => hc _ f.2.1 f.2.2⟩
    exact Nat.card_of_isEmpty
  have h2 : Nat.card (FarFeeders L S k) = 0 := by
    have : IsEmpty (FarFeeders L S k) := ⟨fun f => hc _ f.2.2.1 f.2.2.2.1⟩
    exact Nat.card_of_isEmpty
  rcases hv with rfl | rfl
  · rw [C70_l1 h hk ho, h1]
  · rw [C70_l2 h hk ho, h1, h2]

/-- C70: so no empty site is more than twice (L1) or three times (L2) as likely as another one. -/
theorem C70_range (h : DefReach env v L S) (hv : v = .l1 ∨ v = .l2) {k : Nat} (hk : k < L * L) (ho : ¬ S.Occ k) :
    4 ≤ pickCount env v S k ∧ pickCount env v S k ≤ if v = .l1 then 8 else 12 := by
  have h1 : Nat.card (Feeders L S k) ≤ 4 := by
    rw [← card_dir]; exact Nat.card_le_card_of_injective (fun f : Feeders L S k => f.1) Subtype.val_injective
  have h2 : Nat.card (FarFeeders L S k) ≤ 4 := by
    rw [← card_dir]; exact Nat.card_le_card_of_injective (fun f : FarFeeders L S k => f.1) Subtype.val_injective
  rcases hv with rfl | rfl
  · rw [C70_l1 h hk ho, if_pos rfl]; omega
  · rw [C70_l2 h hk ho, if_neg (by decide)]; omega

theorem card_dirs (P : Dir → Prop) [DecidablePred P] :
    Nat.card {dir : Dir // P dir} = (([.right, .down, .left, .up] : List Dir).filter (fun dir => decide (P dir))).length := by
  let _ : Fintype Dir := ⟨⟨([.right, .down, .left, .up] : List Dir), by decide⟩, fun dir => by cases dir <;> decide⟩
  rw [Nat.card_eq_fintype_card, Fintype.card_subtype]
  rfl

instance (L x : Nat) (dir : Dir) : Decidable (Crosses L x dir) := by cases dir <;> unfold Crosses <;> infer_instance

/-- The right hand sides of `C70_l1` and `C70_l2`, for the witnesses. -/
def feedersN (L : Nat) (S : Perc α) (k : Nat) : Nat :=
  (([.right, .down, .left, .up] : List Dir).filter (fun dir => decide (S.Occ (nbr L k dir) ∧ nbr L k dir ∈ candidates S))).length

def farFeedersN (L : Nat) (S : Perc α) (k : Nat) : Nat :=
  (([.right, .down, .left, .up] : List Dir).filter (fun dir => decide (S.Occ (nbr L k dir) ∧ S.Occ (nbr L (nbr L k dir) dir) ∧
    nbr L (nbr L k dir) dir ∈ candidates S ∧ ¬ Crosses L (nbr L (nbr L k dir) dir) dir.opp))).length

theorem card_feeders (k : Nat) : Nat.card (Feeders L S k) = feedersN L S k := card_dirs _

theorem card_farFeeders (k : Nat) : Nat.card (FarFeeders L S k) = farFeedersN L S k := card_dirs _

/-- Non-trivial case for L1, `L = 3`: with 0 and 1 occupied, site 2 (a neighbour of both) is chosen with 6 of 36 outcomes, site 3 (a neighbour of
0) with 5, and site 8 (a neighbour of neither) with 4. -/
example : ∃ S, DefReach demoEnv .l1 3 S ∧ (candidates S).length = 9 ∧ pickCount demoEnv .l1 S 2 = 6 ∧ pickCount demoEnv .l1 S 3 = 5 ∧
    pickCount demoEnv .l1 S 8 = 4 := by
  obtain ⟨S, h, hp⟩ := checkOps_def (env := demoEnv) (v := .l1) (L := 3) (ops := [.place ⟨0, 0⟩, .place ⟨8, 0⟩])
    (p := fun S => decide ((candidates S).length = 9 ∧ (¬ S.Occ 2 ∧ ¬ S.Occ 3 ∧ ¬ S.Occ 8) ∧ feedersN 3 S 2 = 2 ∧ feedersN 3 S 3 = 1 ∧
      feedersN 3 S 8 = 0)) (by simp [Op.isDefault]) (by decide +kernel)
  obtain ⟨h1, ⟨h2, h3, h4⟩, h5, h6, h7⟩ := of_decide_eq_true hp
  exact ⟨S, h, h1, by rw [C70_l1 h (by decide) h2, card_feeders, h5], by rw [C70_l1 h (by decide) h3, card_feeders, h6],
    by rw [C70_l1 h (by decide) h4, card_feeders, h7]⟩

/-- C70: the law of L2 is not invariant under translations of the torus.  On the lattice of length 3 the first state has the sites 0 and 1
occupied and the second one the translated sites 2 and 0; all nine sites are candidates in both.  The first state places the remaining
site of the row with 8 of the 36 outcomes, the second one with 6. -/
theorem C70_l2_boundary : ∃ S S' : Perc Unit, DefReach demoEnv .l2 3 S ∧ DefReach demoEnv .l2 3 S' ∧
    (∀ s, s ∈ candidates S ↔ s < 9) ∧ (∀ s, s ∈ candidates S' ↔ s < 9) ∧
    (∀ s < 9, S.Occ s ↔ S'.Occ (nbr 3 s .left)) ∧ pickCount demoEnv .l2 S 2 = 8 ∧ pickCount demoEnv .l2 S' (nbr 3 2 .left) = 6 := by
  obtain ⟨S, h, hp⟩ := checkOps_def (env := demoEnv) (v := .l2) (L := 3) (ops := [.place ⟨0, 0⟩, .place ⟨8, 0⟩])
    (p := fun S => decide ((candidates S) = [1, 2, 3, 4, 5, 6, 7, 8, 0] ∧ (∀ s ∈ List.range 9, (S.Occ s ↔ s = 0 ∨ s = 1)) ∧ feedersN 3 S 2 = 2 ∧ farFeedersN 3 S 2 = 2))
    (by simp [Op.isDefault]) (by decide +kernel)
  obtain ⟨S', h', hp'⟩ := checkOps_def (env := demoEnv) (v := .l2) (L := 3) (ops := [.place ⟨1, 0⟩, .place ⟨8, 0⟩])
    (p := fun S => decide ((candidates S) = [1, 2, 3, 4, 5, 6, 7, 8, 0] ∧ (∀ s ∈ List.range 9, (S.Occ s ↔ s = 0 ∨ s = 2)) ∧ feedersN 3 S 1 = 2 ∧ farFeedersN 3 S 1 = 0))
    (by simp [Op.isDefault]) (by decide +kernel)
  obtain ⟨a1, a2, a3, a4⟩ := of_decide_eq_true hp
  obtain ⟨b1, b2, b3, b4⟩ := of_decide_eq_true hp'
  replace a2 := fun s hs => a2 s (List.mem_range.2 hs)
  replace b2 := fun s hs => b2 s (List.mem_range.2 hs)
  have hm : ∀ s, s ∈ [1, 2, 3, 4, 5, 6, 7, 8, 0] ↔ s < 9 := by intro s; simp; omega
  refine ⟨S, S', h, h', by rw [a1]; exact hm, by rw [b1]; exact hm, ?_, ?_, ?_⟩
  · intro s hs
    rw [a2 s hs, b2 _ (nbr_lt (L := 3) hs .left)]
    revert s; decide
  · rw [C70_l2 h (by decide) (by rw [a2 2 (by decide)]; decide), card_feeders, card_farFeeders, a3, a4]
  · rw [show nbr 3 2 .left = 1 by decide, C70_l2 h' (by decide) (by rw [b2 1 (by decide)]; decide), card_feeders, card_farFeeders, b3, b4]

end SqPerc
