import Verif.Proof.Torus
import Mathlib.Tactic.Abel
/-
Facts about connectivity and walks.
-/
namespace SqPerc

variable {L : Nat} {occ : Nat → Prop}

/-! ### Bonds -/

theorem BondConn.refl (b : Nat) : BondConn L occ b b := Relation.ReflTransGen.refl

theorem BondConn.trans {a b c : Nat} (h : BondConn L occ a b) (h' : BondConn L occ b c) : BondConn L occ a c :=
  Relation.ReflTransGen.trans h h'

theorem BondConn.symm {a b : Nat} (h : BondConn L occ a b) : BondConn L occ b a := by
  induction h with
  | refl => exact BondConn.refl _
  | tail _ h ih =>
    obtain ⟨hx, hy, s, hs, h1, h2⟩ := h
    exact BondConn.trans (Relation.ReflTransGen.single ⟨hy, hx, s, hs, h2, h1⟩) ih

theorem BondConn.mono {occ' : Nat → Prop} (hm : ∀ s, occ s → occ' s) {a b : Nat} (h : BondConn L occ a b) :
    BondConn L occ' a b := by
  induction h with
  | refl => exact BondConn.refl _
  | tail _ h ih =>
    obtain ⟨hx, hy, s, hs, h1, h2⟩ := h
    exact BondConn.trans ih (Relation.ReflTransGen.single ⟨hx, hy, s, hm s hs, h1, h2⟩)

theorem BondConn.site {s : Nat} (hs : s < L * L) (ho : occ s) (d d' : Dir) :
    BondConn L occ (bondAt L s d) (bondAt L s d') :=
  Relation.ReflTransGen.single ⟨bondAt_lt hs d, bondAt_lt hs d', s, ho, incident_bondAt hs d, incident_bondAt hs d'⟩

/-- A bond connected to another bond touches an occupied site. -/
theorem BondConn.eq_or_occ {a b : Nat} (h : BondConn L occ a b) : a = b ∨ ∃ s, occ s ∧ Incident L s a := by
  induction h using Relation.ReflTransGen.head_induction_on with
  | refl => exact Or.inl rfl
  | head h _ _ =>
    obtain ⟨_, _, s, hs, h1, _⟩ := h
    exact Or.inr ⟨s, hs, h1⟩

theorem BondConn.lt {a b : Nat} (h : BondConn L occ a b) (ha : a < 2 * (L * L)) : b < 2 * (L * L) := by
  induction h with
  | refl => exact ha
  | tail _ h _ => exact h.2.1

/-- Connectivity after occupying the additional site `k`. -/
theorem BondConn.insert_iff {k : Nat} (hk : k < L * L) {b b' : Nat} :
    BondConn L (fun s => occ s ∨ s = k) b b' ↔
      BondConn L occ b b' ∨
        ((∃ d, BondConn L occ b (bondAt L k d)) ∧ ∃ d, BondConn L occ (bondAt L k d) b') := by
  constructor
  · intro h
    induction h with
    | refl => exact Or.inl (BondConn.refl _)
    | @tail c e _ h ih =>
      obtain ⟨hc, he, s, hs, h1, h2⟩ := h
      rcases hs with hs | hs
      · have hce : BondConn L occ c e := Relation.ReflTransGen.single ⟨hc, he, s, hs, h1, h2⟩
        rcases ih with ih | ⟨ih1, d, ih2⟩
        · exact Or.inl (ih.trans hce)
        · exact Or.inr ⟨ih1, d, ih2.trans hce⟩
      · subst hs
        obtain ⟨_, d1, rfl⟩ := (incident_iff hc).1 h1
        obtain ⟨_, d2, rfl⟩ := (incident_iff he).1 h2
        rcases ih with ih | ⟨ih1, _⟩
        · exact Or.inr ⟨⟨d1, ih⟩, d2, BondConn.refl _⟩
        · exact Or.inr ⟨ih1, d2, BondConn.refl _⟩
  · have hm : ∀ s, occ s → (fun s => occ s ∨ s = k) s := fun s hs => Or.inl hs
    rintro (h | ⟨⟨d, h⟩, d', h'⟩)
    · exact h.mono hm
    · exact ((h.mono hm).trans (BondConn.site hk (Or.inr rfl) d d')).trans (h'.mono hm)

/-! ### Sites -/

theorem SiteConn.refl (s : Nat) : SiteConn L occ s s := Relation.ReflTransGen.refl

theorem SiteConn.trans {a b c : Nat} (h : SiteConn L occ a b) (h' : SiteConn L occ b c) : SiteConn L occ a c :=
  Relation.ReflTransGen.trans h h'

theorem SiteConn.single {s : Nat} (d : Dir) (h1 : occ s) (h2 : occ (nbr L s d)) : SiteConn L occ s (nbr L s d) :=
  Relation.ReflTransGen.single ⟨h1, h2, d, rfl⟩

/-- Two occupied ends of one bond are connected. -/
theorem SiteConn.of_incident {s t b : Nat} (hb : b < 2 * (L * L)) (hs : occ s) (ht : occ t) (h1 : Incident L s b)
    (h2 : Incident L t b) : SiteConn L occ s t := by
  obtain ⟨hsl, d, rfl⟩ := (incident_iff hb).1 h1
  have : t = s ∨ t = nbr L s d := by
    rcases bondEnds_bondAt hsl d with e | e <;> rcases h2 with h2 | h2 <;> rw [e] at h2 <;> simp at h2 <;> simp [h2]
  rcases this with h | h
  · rw [h]; exact SiteConn.refl _
  · rw [h]; exact SiteConn.single d hs (h ▸ ht)

theorem siteConn_iff (hocc : ∀ s, occ s → s < L * L) {s t : Nat} (hs : occ s) (ht : occ t) (d d' : Dir) :
    SiteConn L occ s t ↔ BondConn L occ (bondAt L s d) (bondAt L t d') := by
  constructor
  · intro h
    clear ht
    induction h generalizing d' with
    | refl => exact BondConn.site (hocc s hs) hs d d'
    | @tail b c _ h ih =>
      obtain ⟨hb, hc, d0, rfl⟩ := h
      refine (ih d0).trans ?_
      rw [← bondAt_nbr_opp (hocc b hb) d0]
      exact BondConn.site (hocc _ hc) hc _ _
  · intro h
    have key : ∀ b', BondConn L occ (bondAt L s d) b' → ∀ u, occ u → Incident L u b' → SiteConn L occ s u := by
      intro b' hb
      induction hb with
      | refl =>
        intro u hu hi
        exact SiteConn.of_incident (bondAt_lt (hocc s hs) d) hs hu (incident_bondAt (hocc s hs) d) hi
      | @tail c e _ h ih =>
        intro u hu hi
        obtain ⟨hc, he, w, hw, h1, h2⟩ := h
        exact (ih w hw h1).trans (SiteConn.of_incident he hw hu h2 hi)
    exact key _ h t ht (incident_bondAt (hocc t ht) d')

/-! ### Walks -/

theorem Walk.occ_left {s t : Nat} {v : Int × Int} (h : Walk L occ s t v) : occ s := by
  induction h with
  | nil h => exact h
  | snoc _ _ _ ih => exact ih

theorem Walk.occ_right {s t : Nat} {v : Int × Int} (h : Walk L occ s t v) : occ t := by
  cases h with
  | nil h => exact h
  | snoc _ _ h => exact h

theorem Walk.mono {occ' : Nat → Prop} (hm : ∀ s, occ s → occ' s) {s t : Nat} {v : Int × Int} (h : Walk L occ s t v) :
    Walk L occ' s t v := by
  induction h with
  | nil h => exact .nil (hm _ h)
  | snoc d _ h ih => exact .snoc d ih (hm _ h)

theorem Walk.append {s t u : Nat} {v w : Int × Int} (h : Walk L occ s t v) (h' : Walk L occ t u w) :
    Walk L occ s u (v + w) := by
  induction h' with
  | nil _ => simpa using h
  | snoc d _ ho ih => rw [← add_assoc]; exact .snoc d ih ho

theorem Walk.step {s : Nat} (d : Dir) (h1 : occ s) (h2 : occ (nbr L s d)) : Walk L occ s (nbr L s d) d.vec := by
  have := Walk.snoc d (Walk.nil h1) h2
  simpa using this

theorem Walk.reverse (hocc : ∀ s, occ s → s < L * L) {s t : Nat} {v : Int × Int} (h : Walk L occ s t v) :
    Walk L occ t s (-v) := by
  induction h with
  | nil h => simpa using Walk.nil h
  | @snoc t v d h ho ih =>
    have h1 : Walk L occ (nbr L t d) (nbr L (nbr L t d) d.opp) d.opp.vec := by
      apply Walk.step _ ho
      rw [nbr_opp (hocc _ h.occ_right)]
      exact h.occ_right
    rw [nbr_opp (hocc _ h.occ_right), Dir.vec_opp] at h1
    have := h1.append ih
    rw [neg_add_rev]
    exact this

theorem Walk.siteConn {s t : Nat} {v : Int × Int} (h : Walk L occ s t v) : SiteConn L occ s t := by
  induction h with
  | nil _ => exact SiteConn.refl _
  | snoc d h ho ih => exact ih.trans (SiteConn.single d h.occ_right ho)

theorem SiteConn.walk {s t : Nat} (hs : occ s) (h : SiteConn L occ s t) : ∃ v, Walk L occ s t v := by
  induction h with
  | refl => exact ⟨0, .nil hs⟩
  | tail _ h ih =>
    obtain ⟨v, hv⟩ := ih
    obtain ⟨_, h2, d, rfl⟩ := h
    exact ⟨v + d.vec, .snoc d hv h2⟩

/-- A potential that changes by the unit step along every occupied edge measures the displacement of walks. -/
theorem Walk.eq_potential (f : Nat → Int × Int) (hf : ∀ t d, occ t → occ (nbr L t d) → f (nbr L t d) - f t = d.vec)
    {s t : Nat} {v : Int × Int} (h : Walk L occ s t v) : v = f t - f s := by
  induction h with
  | nil _ => simp
  | @snoc t v d h ho ih =>
    rw [ih, ← hf t d h.occ_right ho]
    abel

end SqPerc
