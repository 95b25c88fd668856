import Verif.Props.World
import Verif.Props.Clusters

/-
C97: lists shared without any precaution.
-/
namespace SqPerc

variable {α : Type} {env : Env α} {w w' : World α} {i j r L : Nat} {h g : Handle α} {S : Perc α}

/-! ### Specification -/

/-- All objects have length `L`, and a list in which an object keeps its own random order (no custom list has been set) is not passed to
another object.  Apart from that everything is allowed, unlike in `Safe`: shared lists may be shuffled and swapped, and classes L1 and L2 may
overwrite them. -/
def Unowned (L : Nat) (w : World α) : WOp → Prop
  | .new _ K _ => K = L
  | .setIds i r _ _ => ∀ (j : Nat) (g : Handle α), j ≠ i → w.objs[j]? = some g → g.ref = r → g.obj.modeCustom = true
  | _ => True

/-- What the caller may assign to the list `r`: anything as long as no object uses it; otherwise the list must be a custom list, keep its
length and have site ids as entries. -/
def Writable (L : Nat) (w : World α) (r : Nat) (l : List Int) : Prop :=
  ∀ (j : Nat) (g : Handle α), w.objs[j]? = some g → g.ref = r →
    g.obj.modeCustom = true ∧ l.length = (w.listAt r).length ∧ ∀ x ∈ l, 0 ≤ x ∧ x < (L : Int) * L

/-- The worlds that can arise. -/
inductive Sharing (env : Env α) (L : Nat) : World α → Prop
  | nil : Sharing env L ⟨[], []⟩
  | step {w w' : World α} (op : WOp) : Sharing env L w → Unowned L w op → wstep env w op = some w' → Sharing env L w'
  /-- the caller assigns new values to the entries of the list object `r` -/
  | write {w : World α} (r : Nat) (l : List Int) : Sharing env L w → Writable L w r l → Sharing env L { w with lists := w.lists.set r l }

/-! ### Proofs -/

structure World.Common (w : World α) (env : Env α) (L : Nat) : Prop where
  reach : ∀ {i : Nat} {h : Handle α}, w.objs[i]? = some h → Reach env h.cls L (w.load h)
  bound : ∀ {i : Nat} {h : Handle α}, w.objs[i]? = some h → h.ref < w.lists.length
  nonneg : ∀ {i : Nat} {h : Handle α}, w.objs[i]? = some h → ∀ x ∈ w.listAt h.ref, 0 ≤ x
  share : ∀ {i j : Nat} {h g : Handle α}, i ≠ j → w.objs[i]? = some h → w.objs[j]? = some g → h.ref = g.ref → h.obj.modeCustom = true

theorem World.inPlace_load (hb : h.ref < w.lists.length) : (w.inPlace i h S).load ⟨h.cls, S, h.ref⟩ = S ∧
    (w.inPlace i h S).listAt h.ref = S.siteIds.map Int.ofNat := by
  have e : (w.inPlace i h S).listAt h.ref = S.siteIds.map Int.ofNat := by
    show ((w.lists.set h.ref _)[h.ref]?).getD [] = _
    rw [getElem?_set_same hb]; rfl
  refine ⟨?_, e⟩
  show { S with siteIds := ((w.inPlace i h S).listAt h.ref).map Int.toNat } = S
  rw [e, map_toNat_ofNat]

theorem World.rebind_load : (w.rebind i h S).load ⟨h.cls, S, w.lists.length⟩ = S ∧
    (w.rebind i h S).listAt w.lists.length = S.siteIds.map Int.ofNat := by
  have e : (w.rebind i h S).listAt w.lists.length = S.siteIds.map Int.ofNat := by
    show ((w.lists ++ [_])[w.lists.length]?).getD [] = _
    simp
  refine ⟨?_, e⟩
  show { S with siteIds := ((w.rebind i h S).listAt w.lists.length).map Int.toNat } = S
  rw [e, map_toNat_ofNat]

/-- A call acts on the object as on an object with a list of its own, and the list the object refers to has the value the object sees. -/
structure World.Done (env : Env α) (w w' : World α) (i : Nat) (h h' : Handle α) (op : Op) : Prop where
  obj : w'.objs[i]? = some h'
  cls : h'.cls = h.cls
  acts : SqPerc.step env h.cls (w.load h) op = .ok (w'.load h') ∨
    ∃ e, SqPerc.step env h.cls (w.load h) op = .error e ∧ e ≠ .outOfFuel ∧ w'.load h' = stepRaised env h.cls (w.load h) op
  bound : h'.ref < w'.lists.length
  at' : w'.listAt h'.ref = (w'.load h').siteIds.map Int.ofNat

theorem World.Done.reach {h' : Handle α} {op : Op} (D : World.Done env w w' i h h' op) (hR : Reach env h.cls L (w.load h)) : Reach env h'.cls L (w'.load h') := by
  rw [D.cls]
  rcases D.acts with e | ⟨e, e1, e2, e3⟩
  · exact .step op hR e
  · rw [e3]; exact .caught op hR e1 e2

theorem World.setIds_done {b : Bool} {draws : Nat → Nat} (hR : Reach env h.cls L (w.load h)) (hb : h.ref < w.lists.length) (hn : ∀ x ∈ w.listAt h.ref, 0 ≤ x)
    (hi : w.objs[i]? = some h) (hr : r < w.lists.length) :
    ∃ h', World.Done env w (w.setIdsRef i h r b draws) i h h' (.setIds (w.listAt r) b draws) := by
  have self : w.listAt h.ref = (w.load h).siteIds.map Int.ofNat := (map_ofNat_toNat hn).symm
  simp only [World.setIdsRef]
  by_cases hbad : Perc.badIds h.obj.lat.length (w.listAt r) = true
  · rw [if_pos hbad]
    refine ⟨h, hi, rfl, ?_, hb, self⟩
    by_cases he : (w.listAt r).isEmpty = true
    · refine .inr ⟨.valueError, ?_, by decide, rfl⟩
      simp only [SqPerc.step, Perc.setCustomIds]
      rw [if_pos he]
    · refine .inl ?_
      simp only [SqPerc.step, Perc.setCustomIds]
      rw [if_neg he]
      exact if_pos hbad
  · rw [if_neg hbad]
    cases hc : (w.load h).setCustomIds (w.listAt r) b draws with
    | error e =>
      refine ⟨h, hi, rfl, .inr ⟨e, hc, ?_, rfl⟩, hb, self⟩
      rw [(((C71_set_lists hR b draws).1 _).1 hc).1]; decide
    | ok S =>
      have := World.inPlace_load (w := w) (i := i) (h := { h with ref := r }) (S := S) hr
      refine ⟨{ h with obj := S, ref := r }, getElem?_set_same (lt_of_get hi), rfl, .inl ?_, ?_, ?_⟩
      · exact hc.trans (congrArg Except.ok this.1.symm)
      · show r < (w.lists.set r _).length
        rw [List.length_set]; exact hr
      · exact this.2.trans (congrArg (fun T : Perc α => T.siteIds.map Int.ofNat) this.1.symm)

theorem World.call_done {op : Op} (hR : Reach env h.cls L (w.load h)) (hb : h.ref < w.lists.length) (hn : ∀ x ∈ w.listAt h.ref, 0 ≤ x)
    (hi : w.objs[i]? = some h) (hs : w.call env i h op = some w') : ∃ h', World.Done env w w' i h h' op := by
  have self : w.listAt h.ref = (w.load h).siteIds.map Int.ofNat := (map_ofNat_toNat hn).symm
  have hil := lt_of_get hi
  have put : ∀ {S : Perc α}, (SqPerc.step env h.cls (w.load h) op = .ok S ∨
      ∃ e, SqPerc.step env h.cls (w.load h) op = .error e ∧ e ≠ .outOfFuel ∧ S = stepRaised env h.cls (w.load h) op) →
      some (w.inPlace i h S) = some w' → ∃ h', World.Done env w w' i h h' op := by
    intro S hS hs
    have hs := (Option.some.inj hs).symm
    subst hs
    obtain ⟨e1, e2⟩ := World.inPlace_load (w := w) (i := i) (h := h) (S := S) hb
    refine ⟨⟨h.cls, S, h.ref⟩, getElem?_set_same hil, rfl, by rw [e1]; exact hS, ?_, by rw [e1]; exact e2⟩
    show h.ref < (w.lists.set _ _).length
    rw [List.length_set]; exact hb
  have gen : (match SqPerc.step env h.cls (w.load h) op with
      | .ok S => some (w.inPlace i h S)
      | .error e => if e = .outOfFuel then none else some (w.inPlace i h (stepRaised env h.cls (w.load h) op))) = some w' →
      ∃ h', World.Done env w w' i h h' op := by
    intro hs
    cases hst : SqPerc.step env h.cls (w.load h) op with
    | ok S => rw [hst] at hs; exact put (.inl hst) hs
    | error e =>
      rw [hst] at hs
      by_cases he : e = .outOfFuel
      · exact absurd hs (by simp [he])
      · replace hs : (if e = .outOfFuel then none else some _) = some w' := hs
        rw [if_neg he] at hs
        exact put (.inr ⟨e, hst, he, rfl⟩) hs
  have new : ∀ {W : World α} {S : Perc α}, i < W.objs.length → SqPerc.step env h.cls (w.load h) op = .ok S → some (W.rebind i h S) = some w' →
      ∃ h', World.Done env w w' i h h' op := by
    intro W S hW hS hs
    have hs := (Option.some.inj hs).symm
    subst hs
    obtain ⟨e1, e2⟩ := World.rebind_load (w := W) (i := i) (h := h) (S := S)
    refine ⟨⟨h.cls, S, W.lists.length⟩, getElem?_set_same hW, rfl, .inl (by rw [e1]; exact hS), ?_, by rw [e1]; exact e2⟩
    show W.lists.length < (W.lists ++ [_]).length
    simp
  cases op with
  | place d => exact gen hs
  | detect => exact gen hs
  | runOnce fuel ds => exact gen hs
  | testRunOnce fuel ds => exact gen hs
  | swapIds a b => exact gen hs
  | setIds ids b draws =>
    simp only [World.call] at hs
    have hs := (Option.some.inj hs).symm
    subst hs
    have hl : ({ w with lists := w.lists ++ [ids] } : World α).listAt w.lists.length = ids := by simp [World.listAt]
    have e : (w.lists ++ [ids])[h.ref]? = w.lists[h.ref]? := List.getElem?_append_left hb
    have el := World.load_congr (w := w) (w' := { w with lists := w.lists ++ [ids] }) (g := h) e
    obtain ⟨h', D⟩ := World.setIds_done (w := { w with lists := w.lists ++ [ids] }) (i := i) (r := w.lists.length) (b := b) (draws := draws)
      (by rw [el]; exact hR) (by show h.ref < (w.lists ++ _).length; rw [List.length_append]; omega)
      (by simp only [World.listAt, e] at hn ⊢; exact hn) hi (by simp)
    refine ⟨h', D.obj, D.cls, ?_, D.bound, D.at'⟩
    have := D.acts
    rw [hl, el] at this
    exact this
  | setIndices idxs b draws =>
    simp only [World.call] at hs
    by_cases hbad : Perc.badIds h.obj.lat.length (idxs.map h.obj.lat.calculateIdFromIndex) = true
    · rw [if_pos hbad] at hs
      have hs := (Option.some.inj hs).symm
      subst hs
      refine ⟨h, hi, rfl, ?_, hb, self⟩
      by_cases he : (idxs.map h.obj.lat.calculateIdFromIndex).isEmpty = true
      · refine .inr ⟨.valueError, ?_, by decide, rfl⟩
        simp only [SqPerc.step, Perc.setCustomIndices]
        exact if_pos he
      · refine .inl ?_
        simp only [SqPerc.step, Perc.setCustomIndices]
        rw [badIds_load, if_neg he]
        exact if_pos hbad
    · rw [if_neg hbad] at hs
      cases hc : (w.load h).setCustomIndices idxs b draws with
      | error e =>
        rw [hc] at hs
        have hs := (Option.some.inj hs).symm
        subst hs
        refine ⟨h, hi, rfl, .inr ⟨e, hc, ?_, rfl⟩, hb, self⟩
        rw [(((C71_set_lists hR b draws).2 _).1 hc).1]; decide
      | ok S => rw [hc] at hs; exact new hil hc hs
  | shuffle draws =>
    simp only [World.call] at hs
    cases hc : (w.load h).shuffle draws with
    | error e => rw [hc] at hs; cases hs
    | ok S => rw [hc] at hs; exact put (.inl hc) hs
  | reset draws =>
    simp only [World.call] at hs
    cases hB : (w.load h).resetBase draws with
    | error e => rw [hB] at hs; cases hs
    | ok B =>
      cases hc : (w.load h).reset env h.cls draws with
      | error e => rw [hB, hc] at hs; cases hs
      | ok S =>
        rw [hB, hc] at hs
        have hil' : i < (w.inPlace i h B).objs.length := by
          show i < (w.objs.set i _).length
          rw [List.length_set]; exact hil
        cases hcl : h.cls with
        | l0 => rw [hcl] at hs; exact put (.inl hc) hs
        | sp => rw [hcl] at hs; exact put (.inl hc) hs
        | l1 => rw [hcl] at hs; exact new hil' hc hs
        | l2 => rw [hcl] at hs; exact new hil' hc hs

theorem World.listAt_eq {l : List Int} (hr : w.lists[r]? = some l) : w.listAt r = l := by simp [World.listAt, hr]

theorem World.get_listAt (hr : r < w.lists.length) : w.lists[r]? = some (w.listAt r) := by
  simp only [World.listAt, List.getElem?_eq_getElem hr, Option.getD_some]

/-- Another object after its list has been changed. -/
theorem World.Common.other (I : w.Common env L) (hg : w.objs[j]? = some g) {l : List Int} (hl : w'.listAt g.ref = l)
    (hk : l = w.listAt g.ref ∨ (g.obj.modeCustom = true ∧ l.length = (w.listAt g.ref).length ∧ ∀ x ∈ l, 0 ≤ x ∧ x < (L : Int) * L)) :
    Reach env g.cls L (w'.load g) ∧ ∀ x ∈ w'.listAt g.ref, 0 ≤ x := by
  subst hl
  rcases hk with hk | ⟨h1, h2, h3⟩
  · have : w'.load g = w.load g := by simp only [World.load, hk]
    rw [this, hk]
    exact ⟨I.reach hg, I.nonneg hg⟩
  · refine ⟨?_, fun x hx => (h3 x hx).1⟩
    have := Reach.write ((w'.listAt g.ref).map Int.toNat) (I.reach hg) h1 (by
      show _ = ((w.listAt g.ref).map Int.toNat).length
      simp [h2]) (by
      intro x hx
      obtain ⟨y, hy, rfl⟩ := List.mem_map.1 hx
      obtain ⟨a, b⟩ := h3 y hy
      have : (y.toNat : Int) < ((L * L : Nat) : Int) := by rw [Int.toNat_of_nonneg a]; push_cast; exact b
      exact_mod_cast this)
    exact this

/-- Entries that an object works with. -/
theorem Reach.entries {v : Variant} (hR : Reach env v L S) : ∀ x ∈ S.siteIds.map Int.ofNat, 0 ≤ x ∧ x < (L : Int) * L := by
  intro x hx
  obtain ⟨k, hk, rfl⟩ := List.mem_map.1 hx
  have := hR.ids.1 k hk
  refine ⟨Int.natCast_nonneg k, ?_⟩
  rw [Int.ofNat_eq_natCast]
  exact_mod_cast this

theorem World.Common.call {op : Op} (I : w.Common env L) (hi : w.objs[i]? = some h) (hs : w.call env i h op = some w') : w'.Common env L := by
  obtain ⟨h', D⟩ := World.call_done (I.reach hi) (I.bound hi) (I.nonneg hi) hi hs
  obtain ⟨c1, h'', c2, c3, c4⟩ := World.call_handle (I.reach hi) hi hs
  rw [D.obj] at c2
  cases c2
  have old : ∀ {j : Nat} {g : Handle α}, j ≠ i → w'.objs[j]? = some g → w.objs[j]? = some g := fun hj hg => by rw [← c1 _ hj]; exact hg
  have others : ∀ {j : Nat} {g : Handle α}, j ≠ i → w'.objs[j]? = some g →
      g.ref < w'.lists.length ∧ Reach env g.cls L (w'.load g) ∧ ∀ x ∈ w'.listAt g.ref, 0 ≤ x := by
    intro j g hj hg
    have hg := old hj hg
    obtain ⟨l', k1, k2, k3, k4, k5⟩ := World.call_lists (I.reach hi) (I.nonneg hi) hi hs (World.get_listAt (I.bound hg))
    refine ⟨(List.getElem?_eq_some_iff.1 k1).1, I.other hg (World.listAt_eq k1) ?_⟩
    by_cases e : g.ref = h.ref
    · refine .inr ⟨I.share hj hg hi e, k2, ?_⟩
      by_cases hsw : ∀ a b, op ≠ .swapIds a b
      · intro x hx
        have := (k3 hsw x hx)
        rw [e, ← map_ofNat_toNat (I.nonneg hi)] at this
        exact (I.reach hi).entries x this
      · push Not at hsw
        obtain ⟨a, b, rfl⟩ := hsw
        have href : h'.ref = h.ref := by
          rcases c4 with c4 | ⟨c4, _⟩
          · exfalso
            have e' : w'.lists.length = w.lists.length := by
              simp only [World.call] at hs
              split at hs
              · rw [← Option.some.inj hs]; exact List.length_set
              · split at hs
                · cases hs
                · rw [← Option.some.inj hs]; exact List.length_set
            have := D.bound
            omega
          · exact c4
        have : l' = (w'.load h').siteIds.map Int.ofNat := by
          rw [← D.at', href, ← e, World.listAt_eq k1]
        rw [this]
        exact (D.reach (I.reach hi)).entries
    · refine .inl (k5 ?_)
      have ne : ∀ {q : Handle α}, w.objs[i]? = some q → q.ref = g.ref → False := fun hq e' => by rw [hi] at hq; cases hq; exact e e'.symm
      rintro ⟨q, hq, e', _⟩
      exact ne hq e'
  refine ⟨fun {j g} hg => ?_, fun {j g} hg => ?_, fun {j g} hg => ?_, fun {j k g f} hjk hg hf e => ?_⟩
  · by_cases hj : j = i
    · subst hj; rw [D.obj] at hg; cases hg; exact D.reach (I.reach hi)
    · exact (others hj hg).2.1
  · by_cases hj : j = i
    · subst hj; rw [D.obj] at hg; cases hg; exact D.bound
    · exact (others hj hg).1
  · by_cases hj : j = i
    · subst hj
      rw [D.obj] at hg
      cases hg
      rw [D.at']
      intro x hx
      exact ((D.reach (I.reach hi)).entries x hx).1
    · exact (others hj hg).2.2
  · by_cases hj : j = i
    · subst hj
      rw [D.obj] at hg
      cases hg
      have hf := old (Ne.symm hjk) hf
      rcases c4 with c4 | ⟨c4, c5, _⟩
      · have := I.bound hf
        omega
      · rw [c5]; exact I.share hjk hi hf (c4.symm.trans e)
    · have hg := old hj hg
      by_cases hk : k = i
      · subst hk
        rw [D.obj] at hf
        cases hf
        rcases c4 with c4 | ⟨c4, _, _⟩
        · have := I.bound hg
          omega
        · exact I.share hj hg hi (e.trans c4)
      · exact I.share hjk hg (old hk hf) e

theorem World.Common.list (I : w.Common env L) (l : List Int) : World.Common { w with lists := w.lists ++ [l] } env L := by
  have hsame : ∀ {j : Nat} {g : Handle α}, w.objs[j]? = some g → World.listAt { w with lists := w.lists ++ [l] } g.ref = w.listAt g.ref :=
    fun hg => by simp only [World.listAt, List.getElem?_append_left (I.bound hg)]
  refine ⟨fun hg => (I.other hg (hsame hg) (.inl rfl)).1, fun hg => ?_, fun hg => (I.other hg (hsame hg) (.inl rfl)).2, fun hij hg hf e => I.share hij hg hf e⟩
  have := I.bound hg
  show _ < (w.lists ++ [l]).length
  rw [List.length_append]; omega

theorem Sharing.common (hw : Sharing env L w) : w.Common env L := by
  induction hw with
  | nil => exact ⟨fun h => by simp at h, fun h => by simp at h, fun h => by simp at h, fun _ h => by simp at h⟩
  | @write w r l _ hwr I =>
    have other : ∀ {j : Nat} {g : Handle α}, w.objs[j]? = some g → Reach env g.cls L (World.load { w with lists := w.lists.set r l } g) ∧
        ∀ x ∈ World.listAt { w with lists := w.lists.set r l } g.ref, 0 ≤ x := by
      intro j g hg
      by_cases e : g.ref = r
      · obtain ⟨h1, h2, h3⟩ := hwr j g hg e
        have hb := I.bound hg
        refine I.other (l := l) hg ?_ (.inr ⟨h1, by rw [e]; exact h2, h3⟩)
        simp only [World.listAt]
        rw [e, getElem?_set_same (e ▸ hb)]; rfl
      · refine I.other (l := w.listAt g.ref) hg ?_ (.inl rfl)
        simp only [World.listAt]
        rw [List.getElem?_set_ne (fun h => e h.symm)]
    refine ⟨fun hg => (other hg).1, fun hg => ?_, fun hg => (other hg).2, fun hij hg hf e => I.share hij hg hf e⟩
    show _ < (w.lists.set r l).length
    rw [List.length_set]; exact I.bound hg
  | @step w w' op _ hu hs I =>
    cases op with
    | list l => have hs := (Option.some.inj hs).symm; subst hs; exact I.list l
    | call i op =>
      simp only [wstep] at hs
      split at hs
      · cases hs
      · next h hi => exact I.call hi hs
    | setIds i r b draws =>
      simp only [wstep] at hs
      split at hs
      · next h l hi hr =>
        have hs := (Option.some.inj hs).symm
        subst hs
        have hrl := (List.getElem?_eq_some_iff.1 hr).1
        obtain ⟨h', D⟩ := World.setIds_done (b := b) (draws := draws) (I.reach hi) (I.bound hi) (I.nonneg hi) hi hrl
        rcases World.setIds_lists (w := w) (i := i) (h := h) (s := r) (b := b) (draws := draws) with e | ⟨S, _, k3, _, k5, _, _, e⟩
        · rw [e]; exact I
        · rw [e] at D ⊢
          have hobj : ∀ {j : Nat}, j ≠ i → (w.objs.set i { h with obj := S, ref := r })[j]? = w.objs[j]? := fun hj => List.getElem?_set_ne (fun e => hj e.symm)
          have hh' : h' = { h with obj := S, ref := r } := by
            have := D.obj
            rw [show ({ lists := w.lists.set r (S.siteIds.map Int.ofNat), objs := w.objs.set i { h with obj := S, ref := r } } : World α).objs =
              w.objs.set i { h with obj := S, ref := r } from rfl, getElem?_set_same (lt_of_get hi)] at this
            exact (Option.some.inj this).symm
          subst hh'
          have hRi := D.reach (I.reach hi)
          have others : ∀ {j : Nat} {g : Handle α}, j ≠ i → w.objs[j]? = some g →
              Reach env g.cls L (World.load { lists := w.lists.set r (S.siteIds.map Int.ofNat), objs := w.objs.set i { h with obj := S, ref := r } } g) ∧
              ∀ x ∈ World.listAt { lists := w.lists.set r (S.siteIds.map Int.ofNat), objs := w.objs.set i { h with obj := S, ref := r } } g.ref, 0 ≤ x := by
            intro j g hj hg
            by_cases e : g.ref = r
            · have hat : World.listAt { lists := w.lists.set r (S.siteIds.map Int.ofNat), objs := w.objs.set i { h with obj := S, ref := r } } g.ref = S.siteIds.map Int.ofNat := by
                simp only [World.listAt]
                rw [e, getElem?_set_same hrl]; rfl
              refine I.other hg hat (.inr ⟨hu j g hj hg e, ?_, ?_⟩)
              · rw [List.length_map, k3.length_eq, List.length_map, e]
              · have := hRi.entries
                rw [← D.at'] at this
                rw [← hat, e]
                exact this
            · refine I.other (l := w.listAt g.ref) hg ?_ (.inl rfl)
              simp only [World.listAt]
              rw [List.getElem?_set_ne (fun h => e h.symm)]
          refine ⟨fun {j g} hg => ?_, fun {j g} hg => ?_, fun {j g} hg => ?_, fun {j k g f} hjk hg hf e => ?_⟩
          · by_cases hj : j = i
            · subst hj; rw [D.obj] at hg; cases hg; exact hRi
            · exact (others hj (by rw [← hobj hj]; exact hg)).1
          · show _ < (w.lists.set r _).length
            rw [List.length_set]
            by_cases hj : j = i
            · subst hj; rw [D.obj] at hg; cases hg; exact hrl
            · exact I.bound (i := j) (by rw [← hobj hj]; exact hg)
          · by_cases hj : j = i
            · subst hj
              rw [D.obj] at hg
              cases hg
              rw [D.at']
              exact fun x hx => (hRi.entries x hx).1
            · exact (others hj (by rw [← hobj hj]; exact hg)).2
          · by_cases hj : j = i
            · subst hj; rw [D.obj] at hg; cases hg; exact k5
            · replace hg : w.objs[j]? = some g := by rw [← hobj hj]; exact hg
              by_cases hk : k = i
              · subst hk
                rw [D.obj] at hf
                cases hf
                exact hu j g hj hg e
              · exact I.share hjk hg (by rw [← hobj hk]; exact hf) e
      · cases hs
    | new v K draws =>
      simp only [wstep] at hs
      cases hn : Perc.new env K draws with
      | error e => rw [hn] at hs; have hs := (Option.some.inj hs).symm; subst hs; exact I
      | ok S =>
        rw [hn] at hs
        have hs := (Option.some.inj hs).symm
        subst hs
        have hK : K = L := hu
        subst hK
        have J := I.list (S.siteIds.map Int.ofNat)
        have hR : Reach env v K S := .new hn
        have hat : World.listAt { lists := w.lists ++ [S.siteIds.map Int.ofNat], objs := w.objs ++ [⟨v, S, w.lists.length⟩] } w.lists.length = S.siteIds.map Int.ofNat := by
          simp [World.listAt]
        have cs : ∀ {j : Nat} {g : Handle α}, (w.objs ++ [⟨v, S, w.lists.length⟩])[j]? = some g → w.objs[j]? = some g ∨ (j = w.objs.length ∧ g = ⟨v, S, w.lists.length⟩) := by
          intro j g hg
          rcases Nat.lt_trichotomy j w.objs.length with hj | hj | hj
          · rw [List.getElem?_append_left hj] at hg; exact .inl hg
          · subst hj; right; simpa [eq_comm] using hg
          · rw [List.getElem?_eq_none (by simp; omega)] at hg; cases hg
        refine ⟨fun {j g} hg => ?_, fun {j g} hg => ?_, fun {j g} hg => ?_, fun {j k g f} hjk hg hf e => ?_⟩
        · rcases cs hg with hg | ⟨rfl, rfl⟩
          · exact J.reach hg
          · have e : World.load { lists := w.lists ++ [S.siteIds.map Int.ofNat], objs := w.objs ++ [⟨v, S, w.lists.length⟩] } ⟨v, S, w.lists.length⟩ = S := by
              show { S with siteIds := (World.listAt _ w.lists.length).map Int.toNat } = S
              rw [hat, map_toNat_ofNat]
            rw [e]; exact hR
        · rcases cs hg with hg | ⟨rfl, rfl⟩
          · exact J.bound hg
          · simp
        · rcases cs hg with hg | ⟨rfl, rfl⟩
          · exact J.nonneg hg
          · intro x hx
            replace hx : x ∈ World.listAt _ w.lists.length := hx
            rw [hat] at hx
            obtain ⟨n, _, rfl⟩ := List.mem_map.1 hx
            exact Int.natCast_nonneg n
        · rcases cs hg with hg | ⟨rfl, rfl⟩
          · rcases cs hf with hf | ⟨rfl, rfl⟩
            · exact I.share hjk hg hf e
            · have := I.bound hg
              have e : g.ref = w.lists.length := e
              omega
          · rcases cs hf with hf | ⟨rfl, rfl⟩
            · have := I.bound hf
              have e : w.lists.length = f.ref := e
              omega
            · exact absurd rfl hjk

/-! ### Theorems -/

/-- C97: whatever is done to shared lists — shuffled by another object, swapped, overwritten by L1 or L2 or by the caller — every object is in
one of the states of `Reach`, so that all that is proved about any history of one object holds. -/
theorem C97_any_history (hw : Sharing env L w) (hi : w.objs[i]? = some h) : Reach env h.cls L (w.load h) := hw.common.reach hi

/-- C97: in particular the cluster labels are those of the connected components of the occupied sites, and the counter is the number of
occupied sites. -/
theorem C97_clusters (hw : Sharing env L w) (hi : w.objs[i]? = some h) :
    (∀ {s t : Nat}, h.obj.Occ s → h.obj.Occ t → (h.obj.lat.getSiteGid s = h.obj.lat.getSiteGid t ↔ SiteConn L h.obj.Occ s t)) ∧
    h.obj.occupiedCount = occCount L h.obj.Occ := by
  have hR := hw.common.reach hi
  exact ⟨fun {s t} hs ht => C07_same_gid_iff_connected hR hs ht, show (w.load h).occupiedCount = _ from C11_counter hR⟩

/-- C97: a call acts on its object as it does on an object with a list of its own; of the other objects it changes at most entries of the
site order, which stay site ids, and nothing else. -/
theorem C97_call (hw : Sharing env L w) (hi : w.objs[i]? = some h) {op : Op} (hs : wstep env w (.call i op) = some w') :
    (∃ h' : Handle α, w'.objs[i]? = some h' ∧ h'.cls = h.cls ∧ (SqPerc.step env h.cls (w.load h) op = .ok (w'.load h') ∨
      ∃ e, SqPerc.step env h.cls (w.load h) op = .error e ∧ e ≠ .outOfFuel ∧ w'.load h' = stepRaised env h.cls (w.load h) op)) ∧
    ∀ (j : Nat) (g : Handle α), j ≠ i → w.objs[j]? = some g → w'.objs[j]? = some g ∧ (g.ref ≠ h.ref → w'.load g = w.load g) ∧
      (w'.listAt g.ref).length = (w.listAt g.ref).length ∧ ∀ x ∈ w'.listAt g.ref, 0 ≤ x ∧ x < (L : Int) * L := by
  have I := hw.common
  have I' : w'.Common env L := (Sharing.step (.call i op) hw trivial hs).common
  simp only [wstep, hi] at hs
  obtain ⟨h', D⟩ := World.call_done (I.reach hi) (I.bound hi) (I.nonneg hi) hi hs
  obtain ⟨c1, _⟩ := World.call_handle (I.reach hi) hi hs
  refine ⟨⟨h', D.obj, D.cls, D.acts⟩, fun j g hj hg => ?_⟩
  have hg' : w'.objs[j]? = some g := by rw [c1 j hj]; exact hg
  obtain ⟨l', k1, k2, _, _, k5⟩ := World.call_lists (I.reach hi) (I.nonneg hi) hi hs (World.get_listAt (I.bound hg))
  refine ⟨hg', fun hne => World.load_congr ?_, by rw [World.listAt_eq k1, k2], ?_⟩
  · rw [World.get_listAt (I.bound hg), k1, k5]
    rintro ⟨q, hq, e, _⟩
    rw [hi] at hq
    cases hq
    exact hne e.symm
  · have := (I'.reach hg').entries
    rw [show (w'.load g).siteIds = (w'.listAt g.ref).map Int.toNat from rfl, map_ofNat_toNat (I'.nonneg hg')] at this
    exact this

/-! ### Examples -/

/-- A decidable condition that implies `Unowned`. -/
def unownedB (L : Nat) (w : World α) : WOp → Bool
  | .new _ K _ => K == L
  | .setIds i r _ _ => othersB w i fun g => g.ref != r || g.obj.modeCustom
  | _ => true

theorem unownedB_sound {op : WOp} (hb : unownedB L w op = true) : Unowned L w op := by
  cases op with
  | new v K draws => exact eq_of_beq hb
  | list l => trivial
  | call i op => trivial
  | setIds i r b draws =>
    intro j g hj hg e
    have := othersB_iff hb j g hj hg
    simpa [e] using this

def sharingSteps (env : Env α) (L : Nat) : List WOp → World α → Option (World α)
  | [], w => some w
  | op :: ops, w =>
    if unownedB L w op then
      match wstep env w op with
      | some w' => sharingSteps env L ops w'
      | none => none
    else none

theorem Sharing.steps : ∀ {ops : List WOp} {w w' : World α}, Sharing env L w → sharingSteps env L ops w = some w' → Sharing env L w' := by
  intro ops
  induction ops with
  | nil => intro w w' hw e; rw [← Option.some.inj e]; exact hw
  | cons op ops ih =>
    intro w w' hw e
    simp only [sharingSteps] at e
    split at e
    · next hb =>
      split at e
      · next w1 h1 => exact ih (.step op hw (unownedB_sound hb) h1) e
      · cases e
    · cases e

/-- Objects of classes L1, L2 and L0 with length 2 use one list; L1 overwrites entries of it, L0 shuffles it and swaps two ids, and in between
all of them place sites. -/
def roughOps : List WOp :=
  [.new .l1 2 (fun _ => 0), .new .l2 2 (fun _ => 0), .new .l0 2 (fun _ => 0), .list [0, 1, 2, 3], .setIds 0 3 false (fun _ => 0), .setIds 1 3 false (fun _ => 0),
   .call 0 (.place ⟨1, 0⟩), .call 1 (.place ⟨0, 1⟩), .setIds 2 3 true (fun _ => 0), .call 2 .place0, .call 0 (.place ⟨1, 0⟩), .call 2 (.swapIds 0 3), .call 2 .place0,
   .call 0 (.runOnce 40 fun _ => ⟨1, 0⟩)]

/-- `Sharing` is met by such a history; the list has lost an id, and then the caller sets all entries to 2. -/
theorem C97_rough : ∃ w : World Unit, Sharing demoEnv 2 w ∧ (∃ h, w.objs[0]? = some h ∧ 2 ≤ h.obj.occupiedCount) ∧ (∃ h, w.objs[2]? = some h ∧ 1 ≤ h.obj.occupiedCount) ∧
    ¬ (w.listAt 3).Nodup ∧ ∃ w', Sharing demoEnv 2 w' ∧ w'.objs = w.objs ∧ w'.listAt 3 = [2, 2, 2, 2] := by
  have hc : (match sharingSteps demoEnv 2 roughOps ⟨[], []⟩ with
    | some w => (match w.objs[0]? with | some h => decide (2 ≤ h.obj.occupiedCount) | none => false) &&
        (match w.objs[2]? with | some h => decide (1 ≤ h.obj.occupiedCount) | none => false) && decide (¬ (w.listAt 3).Nodup) && decide ((w.listAt 3).length = 4) &&
        decide (3 < w.lists.length) && w.objs.all fun g => g.ref != 3 || g.obj.modeCustom
    | none => false) = true := by decide +kernel
  cases hw : sharingSteps demoEnv 2 roughOps ⟨[], []⟩ with
  | none => rw [hw] at hc; cases hc
  | some w =>
    rw [hw] at hc
    simp only [Bool.and_eq_true, decide_eq_true_eq] at hc
    obtain ⟨⟨⟨⟨⟨h1, h2⟩, h3⟩, h4⟩, h5⟩, h6⟩ := hc
    have hsh := Sharing.steps .nil hw
    refine ⟨w, hsh, ?_, ?_, h3, _, .write 3 [2, 2, 2, 2] hsh ?_, rfl, ?_⟩
    · split at h1
      · next h e => exact ⟨h, e, of_decide_eq_true h1⟩
      · cases h1
    · split at h2
      · next h e => exact ⟨h, e, of_decide_eq_true h2⟩
      · cases h2
    · intro j g hg e
      have := List.all_eq_true.1 h6 g (List.mem_of_getElem? hg)
      refine ⟨by simpa [e] using this, by rw [h4]; rfl, ?_⟩
      intro x hx
      simp only [List.mem_cons, List.not_mem_nil, or_false] at hx
      omega
    · simp only [World.listAt]
      rw [getElem?_set_same h5]; rfl

/-- C97: why the list of an object's own random order must not be passed on: object 1 shuffles the list of object 0, whose reverse index is then wrong, and
`swap_ids` of object 0 makes an id disappear. -/
theorem C97_owned : ∃ w : World Unit,
    wsteps demoEnv [.new .l0 2 (fun _ => 0), .new .l0 2 (fun _ => 0), .setIds 1 0 true (fun _ => 0), .call 0 (.swapIds 0 1)] ⟨[], []⟩ = some w ∧
    ¬ (w.listAt 0).Nodup := by
  obtain ⟨w, hw, hp⟩ := checkWorld_some
    (ops := [.new .l0 2 (fun _ => 0), .new .l0 2 (fun _ => 0), .setIds 1 0 true (fun _ => 0), .call 0 (.swapIds 0 1)])
    (p := fun w => decide (¬ (w.listAt 0).Nodup)) (by decide +kernel)
  exact ⟨w, hw, of_decide_eq_true hp⟩

/-- C97: why objects of different lengths must not use one list: `swap_ids(0, 8)` of an object of length 3 brings the id 8 into it, and the
object of length 2 raises IndexError when it comes to it. -/
theorem C97_lengths : ∃ w : World Unit, ∃ h : Handle Unit,
    wsteps demoEnv [.new .l0 2 (fun _ => 0), .new .l0 3 (fun _ => 0), .list [0, 1, 2, 3], .setIds 0 2 false (fun _ => 0), .setIds 1 2 true (fun _ => 0),
      .call 1 (.swapIds 0 8), .call 0 .place0, .call 0 .place0, .call 0 .place0] ⟨[], []⟩ = some w ∧
    w.objs[0]? = some h ∧ w.listAt 2 = [1, 2, 3, 8] ∧ SqPerc.step demoEnv .l0 (w.load h) .place0 = .error .indexError := by
  obtain ⟨w, hw, hp⟩ := checkWorld_some
    (ops := [.new .l0 2 (fun _ => 0), .new .l0 3 (fun _ => 0), .list [0, 1, 2, 3], .setIds 0 2 false (fun _ => 0), .setIds 1 2 true (fun _ => 0),
      .call 1 (.swapIds 0 8), .call 0 .place0, .call 0 .place0, .call 0 .place0])
    (p := fun w => decide (w.listAt 2 = [1, 2, 3, 8]) &&
      match w.objs[0]? with
      | some h => (match SqPerc.step demoEnv .l0 (w.load h) .place0 with | .error .indexError => true | _ => false)
      | none => false) (by decide +kernel)
  rw [Bool.and_eq_true, decide_eq_true_eq] at hp
  obtain ⟨h1, h2⟩ := hp
  cases hh : w.objs[0]? with
  | none => rw [hh] at h2; cases h2
  | some h =>
    rw [hh] at h2
    refine ⟨w, h, hw, hh, h1, ?_⟩
    replace h2 : (match SqPerc.step demoEnv .l0 (w.load h) .place0 with | .error .indexError => true | _ => false) = true := h2
    split at h2
    · next e => exact e
    · cases h2

end SqPerc
