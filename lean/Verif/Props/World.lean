import Verif.Model.World
import Verif.Proof.Keep
import Verif.Props.Raised
/-
C74: lists shared between the caller and percolation objects.
-/
namespace SqPerc

variable {α : Type} {env : Env α} {w w' : World α} {i j r : Nat} {h g h' : Handle α} {S : Perc α}

/-! ### Specification -/

/-- No object other than `i` refers to the list `r`. -/
def World.Alone (w : World α) (i r : Nat) : Prop := ∀ (j : Nat) (g : Handle α), j ≠ i → w.objs[j]? = some g → g.ref ≠ r

/-- The object works through a custom list in the given order: `SitePercolation`, L0 or the shortest path class, `do_shuffle=False`. -/
def Handle.Fixed (h : Handle α) : Prop := h.cls.plain = true ∧ h.obj.modeCustom = true ∧ h.obj.doShuffle = false

/-- What the caller has to respect: a list that another object works with is passed on only if all of them work through it in the given
order, and `swap_ids` is not called on an object that shares its list. -/
def Safe (w : World α) : WOp → Prop
  | .setIds i r b _ => w.Alone i r ∨
      (b = false ∧ (∀ h, w.objs[i]? = some h → h.cls.plain = true) ∧ ∀ (j : Nat) (g : Handle α), j ≠ i → w.objs[j]? = some g → g.ref = r → g.Fixed)
  | .call i (.swapIds _ _) => ∀ h : Handle α, w.objs[i]? = some h → w.Alone i h.ref
  | _ => True

/-- The worlds that can arise if the caller respects this. -/
inductive WReach (env : Env α) : World α → Prop
  | nil : WReach env ⟨[], []⟩
  | step {w w' : World α} (op : WOp) : WReach env w → Safe w op → wstep env w op = some w' → WReach env w'

/-- The calls that change the value of the list object `r`. -/
def Changes (w : World α) (r : Nat) : WOp → Prop
  | .setIds _ s b _ => s = r ∧ b = true
  | .call i op => ∃ h, w.objs[i]? = some h ∧ h.ref = r ∧
      (match op with
        | .swapIds _ _ => True
        | .reset _ | .shuffle _ => h.obj.doShuffle = true
        | .place _ | .runOnce _ _ | .testRunOnce _ _ => h.cls.plain = false
        | .detect | .setIds _ _ _ | .setIndices _ _ _ => False)
  | .new _ _ _ | .list _ => False

/-- The calls that overwrite entries of the list object `r`, rather than reorder it. -/
def Overwrites (w : World α) (r : Nat) : WOp → Prop
  | .call i op => ∃ h, w.objs[i]? = some h ∧ h.ref = r ∧
      (match op with
        | .swapIds _ _ => True
        | .place _ | .runOnce _ _ | .testRunOnce _ _ => h.cls.plain = false
        | _ => False)
  | _ => False

/-! ### Proofs -/

theorem map_ofNat_toNat {l : List Int} (hl : ∀ x ∈ l, 0 ≤ x) : (l.map Int.toNat).map Int.ofNat = l := by
  rw [List.map_map]
  conv_rhs => rw [← List.map_id l]
  exact List.map_congr_left fun x hx => Int.toNat_of_nonneg (hl x hx)

theorem map_toNat_ofNat (l : List Nat) : (l.map Int.ofNat).map Int.toNat = l := by
  rw [List.map_map]
  conv_rhs => rw [← List.map_id l]
  exact List.map_congr_left fun x _ => rfl

theorem Reach.latLength {v : Variant} {L : Nat} (h : Reach env v L S) : S.lat.length = L := by
  obtain ⟨_, A, M, _⟩ := h.sim
  rw [M.lat]; rfl

/-- The invariant of `WReach`, for the objects in `X`. -/
structure World.InvOn (w : World α) (env : Env α) (X : Nat → Prop) : Prop where
  reach : ∀ {i : Nat} {h : Handle α}, X i → w.objs[i]? = some h → Reach env h.cls h.obj.lat.length (w.load h)
  bound : ∀ {i : Nat} {h : Handle α}, X i → w.objs[i]? = some h → h.ref < w.lists.length
  nonneg : ∀ {i : Nat} {h : Handle α}, X i → w.objs[i]? = some h → ∀ x ∈ w.listAt h.ref, 0 ≤ x
  share : ∀ {i j : Nat} {h g : Handle α}, X i → X j → i ≠ j → w.objs[i]? = some h → w.objs[j]? = some g → h.ref = g.ref → h.Fixed ∧ g.Fixed

/-- The invariant of `WReach`. -/
structure World.Inv (w : World α) (env : Env α) : Prop where
  reach : ∀ {i : Nat} {h : Handle α}, w.objs[i]? = some h → Reach env h.cls h.obj.lat.length (w.load h)
  bound : ∀ {i : Nat} {h : Handle α}, w.objs[i]? = some h → h.ref < w.lists.length
  nonneg : ∀ {i : Nat} {h : Handle α}, w.objs[i]? = some h → ∀ x ∈ w.listAt h.ref, 0 ≤ x
  share : ∀ {i j : Nat} {h g : Handle α}, i ≠ j → w.objs[i]? = some h → w.objs[j]? = some g → h.ref = g.ref → h.Fixed ∧ g.Fixed

theorem World.Inv.on (I : w.Inv env) (X : Nat → Prop) : w.InvOn env X :=
  ⟨fun _ h => I.reach h, fun _ h => I.bound h, fun _ h => I.nonneg h, fun _ _ h a b e => I.share h a b e⟩

/-- The other objects are as before. -/
def Others (w w' : World α) (i : Nat) : Prop := ∀ (j : Nat) (g : Handle α), j ≠ i → w.objs[j]? = some g → w'.objs[j]? = some g ∧ w'.load g = w.load g

theorem World.load_congr {w w' : World α} {g : Handle α} (e : w'.lists[g.ref]? = w.lists[g.ref]?) : w'.load g = w.load g := by
  simp only [World.load, World.listAt, e]

theorem lt_of_get {l : List (Handle α)} (hi : l[i]? = some h) : i < l.length := (List.getElem?_eq_some_iff.1 hi).1

theorem getElem?_set_same {β : Type} {l : List β} {i : Nat} {x : β} (hi : i < l.length) : (l.set i x)[i]? = some x := by
  rw [List.getElem?_set_self hi]

/-- A change of the list object `r` and of the object `i`, which refers to `r` afterwards. -/
theorem World.InvOn.put (I : w.InvOn env (· ≠ i)) {h0 : Handle α} (hi : w.objs[i]? = some h0) (hr : r < w.lists.length) (hS : Reach env h.cls h.obj.lat.length S)
    (hu : (∀ (j : Nat) (g : Handle α), j ≠ i → w.objs[j]? = some g → g.ref ≠ r) ∨
      (w.lists[r]? = some (S.siteIds.map Int.ofNat) ∧ (Handle.Fixed ⟨h.cls, S, r⟩) ∧ ∀ (j : Nat) (g : Handle α), j ≠ i → w.objs[j]? = some g → g.ref = r → g.Fixed)) :
    let w' : World α := { lists := w.lists.set r (S.siteIds.map Int.ofNat), objs := w.objs.set i ⟨h.cls, S, r⟩ }
    World.Inv w' env ∧ w'.objs[i]? = some ⟨h.cls, S, r⟩ ∧ w'.load ⟨h.cls, S, r⟩ = S ∧ Others w w' i := by
  intro w'
  have hil := lt_of_get hi
  have hat : w'.listAt r = S.siteIds.map Int.ofNat := by
    show ((w.lists.set r _)[r]?).getD [] = _
    rw [getElem?_set_same hr]; rfl
  have hload : w'.load ⟨h.cls, S, r⟩ = S := by
    show { S with siteIds := (w'.listAt r).map Int.toNat } = S
    rw [hat, map_toNat_ofNat]
  have hsame : ∀ (j : Nat) (g : Handle α), j ≠ i → w.objs[j]? = some g → w'.lists[g.ref]? = w.lists[g.ref]? := by
    intro j g hj hg
    show (w.lists.set r _)[g.ref]? = _
    by_cases hgr : g.ref = r
    · rcases hu with hu | ⟨hu, _⟩
      · exact absurd hgr (hu j g hj hg)
      · rw [hgr, getElem?_set_same hr, hu]
    · rw [List.getElem?_set_ne (fun e => hgr e.symm)]
  have hobj : ∀ j, j ≠ i → w'.objs[j]? = w.objs[j]? := fun j hj => List.getElem?_set_ne (fun e => hj e.symm)
  have hi' : w'.objs[i]? = some ⟨h.cls, S, r⟩ := getElem?_set_same hil
  have hoth : Others w w' i := fun j g hj hg => ⟨by rw [hobj j hj]; exact hg, World.load_congr (hsame j g hj hg)⟩
  refine ⟨⟨?_, ?_, ?_, ?_⟩, hi', hload, hoth⟩
  · intro j g hg
    by_cases hj : j = i
    · subst hj
      rw [hi'] at hg
      cases hg
      rw [hload]
      have := hS.latLength
      show Reach env h.cls S.lat.length S
      rw [this]; exact hS
    · rw [hobj j hj] at hg
      rw [(hoth j g hj hg).2]; exact I.reach hj hg
  · intro j g hg
    show g.ref < (w.lists.set r _).length
    rw [List.length_set]
    by_cases hj : j = i
    · subst hj
      rw [hi'] at hg
      cases hg
      exact hr
    · rw [hobj j hj] at hg
      exact I.bound hj hg
  · intro j g hg
    by_cases hj : j = i
    · subst hj
      rw [hi'] at hg
      cases hg
      intro x hx
      rw [hat] at hx
      obtain ⟨n, _, rfl⟩ := List.mem_map.1 hx
      exact Int.natCast_nonneg n
    · rw [hobj j hj] at hg
      have e := hsame j g hj hg
      have := I.nonneg hj hg
      intro x hx
      refine this x ?_
      simp only [World.listAt, e] at hx ⊢
      exact hx
  · have key : ∀ {j : Nat} {g : Handle α}, j ≠ i → w.objs[j]? = some g → r = g.ref → Handle.Fixed ⟨h.cls, S, r⟩ ∧ g.Fixed := by
      intro j g hj hg e
      rcases hu with hu | ⟨_, hu1, hu2⟩
      · exact absurd e.symm (hu j g hj hg)
      · exact ⟨hu1, hu2 j g hj hg e.symm⟩
    intro j k g f hjk hg hf e
    by_cases hj : j = i
    · subst hj
      rw [hi'] at hg
      cases hg
      rw [hobj k (Ne.symm hjk)] at hf
      exact key (Ne.symm hjk) hf e
    · rw [hobj j hj] at hg
      by_cases hk : k = i
      · subst hk
        rw [hi'] at hf
        cases hf
        exact (key hj hg e.symm).symm
      · rw [hobj k hk] at hf
        exact I.share hj hk hjk hg hf e

/-- More lists. -/
theorem World.InvOn.list {X : Nat → Prop} (I : w.InvOn env X) (l : List Int) : World.InvOn { w with lists := w.lists ++ [l] } env X ∧
    ∀ {j : Nat} {g : Handle α}, X j → w.objs[j]? = some g → ({ w with lists := w.lists ++ [l] } : World α).load g = w.load g := by
  have hsame : ∀ {j : Nat} {g : Handle α}, X j → w.objs[j]? = some g → (w.lists ++ [l])[g.ref]? = w.lists[g.ref]? :=
    fun hj hg => List.getElem?_append_left (I.bound hj hg)
  refine ⟨⟨fun hj hg => ?_, fun hj hg => ?_, fun {j g} hj hg => ?_, fun hi hj hij hg hf e => I.share hi hj hij hg hf e⟩, fun hj hg => World.load_congr (hsame hj hg)⟩
  · rw [World.load_congr (w := w) (hsame hj hg)]; exact I.reach hj hg
  · have := I.bound hj hg
    show _ < (w.lists ++ [l]).length
    rw [List.length_append]; omega
  · have e := hsame hj hg
    have := I.nonneg hj hg
    intro x hx
    refine this x ?_
    simp only [World.listAt] at hx ⊢
    rw [e] at hx
    exact hx

theorem World.Inv.list (I : w.Inv env) (l : List Int) : World.Inv { w with lists := w.lists ++ [l] } env ∧
    ∀ {j : Nat} {g : Handle α}, w.objs[j]? = some g → ({ w with lists := w.lists ++ [l] } : World α).load g = w.load g := by
  obtain ⟨h1, h2⟩ := (I.on fun _ => True).list l
  exact ⟨⟨h1.reach trivial, h1.bound trivial, h1.nonneg trivial, h1.share trivial trivial⟩, h2 trivial⟩

/-- A new list object for the object `i`. -/
theorem World.InvOn.rebind (I : w.InvOn env (· ≠ i)) {h0 : Handle α} (hi : w.objs[i]? = some h0) (hS : Reach env h.cls h.obj.lat.length S) :
    World.Inv (w.rebind i h S) env ∧ (w.rebind i h S).objs[i]? = some ⟨h.cls, S, w.lists.length⟩ ∧ (w.rebind i h S).load ⟨h.cls, S, w.lists.length⟩ = S ∧
      Others w (w.rebind i h S) i := by
  obtain ⟨J, hJ⟩ := I.list (S.siteIds.map Int.ofNat)
  obtain ⟨h1, h2, h3, h4⟩ := J.put (r := w.lists.length) (S := S) hi (by show _ < (w.lists ++ _).length; simp) hS
    (.inl fun j g hj hg e => by have := I.bound (i := j) hj hg; omega)
  have e : (w.lists ++ [S.siteIds.map Int.ofNat]).set w.lists.length (S.siteIds.map Int.ofNat) = w.lists ++ [S.siteIds.map Int.ofNat] := by
    simp
  simp only [e] at h1 h2 h3 h4
  exact ⟨h1, h2, h3, fun j g hj hg => ⟨(h4 j g hj hg).1, (h4 j g hj hg).2.trans (hJ hj hg)⟩⟩

theorem World.Inv.inPlace (I : w.Inv env) (hi : w.objs[i]? = some h) (hS : Reach env h.cls h.obj.lat.length S)
    (hk : w.Alone i h.ref ∨ (h.Fixed → S.modeCustom = true ∧ S.doShuffle = false ∧ S.siteIds = (w.load h).siteIds)) :
    World.Inv (w.inPlace i h S) env ∧ (w.inPlace i h S).objs[i]? = some ⟨h.cls, S, h.ref⟩ ∧ (w.inPlace i h S).load ⟨h.cls, S, h.ref⟩ = S ∧
      Others w (w.inPlace i h S) i := by
  refine (I.on _).put hi (I.bound hi) hS ?_
  by_cases ha : w.Alone i h.ref
  · exact .inl ha
  · refine .inr ?_
    have hsh : ∃ (j : Nat) (g : Handle α), j ≠ i ∧ w.objs[j]? = some g ∧ g.ref = h.ref := by
      simp only [World.Alone] at ha
      push Not at ha
      exact ha
    obtain ⟨j, g, hj, hg, e⟩ := hsh
    have hF : h.Fixed := (I.share (Ne.symm hj) hi hg e.symm).1
    obtain ⟨h1, h2, h3⟩ := (hk.resolve_left ha) hF
    refine ⟨?_, ⟨hF.1, h1, h2⟩, fun k f hk' hf e => (I.share hk' hf hi e).1⟩
    rw [h3]
    show _ = some (((w.listAt h.ref).map Int.toNat).map Int.ofNat)
    rw [map_ofNat_toNat (I.nonneg hi)]
    have := I.bound hi
    simp only [World.listAt, List.getElem?_eq_getElem this, Option.getD_some]

/-- The effect of a call on the object itself is the effect it has on an object with a list of its own. -/
def Acts (env : Env α) (w w' : World α) (i : Nat) (h : Handle α) (op : Op) : Prop :=
  ∃ h' : Handle α, w'.objs[i]? = some h' ∧ h'.cls = h.cls ∧ (SqPerc.step env h.cls (w.load h) op = .ok (w'.load h') ∨
    ∃ e, SqPerc.step env h.cls (w.load h) op = .error e ∧ e ≠ .outOfFuel ∧ w'.load h' = stepRaised env h.cls (w.load h) op)

theorem badIds_load (w : World α) (h : Handle α) : (w.load h).lat = h.obj.lat := rfl

theorem World.Inv.setIdsRef (I : w.Inv env) (hi : w.objs[i]? = some h) (hr : r < w.lists.length) {b : Bool} {draws : Nat → Nat}
    (hs : w.Alone i r ∨ (b = false ∧ h.cls.plain = true ∧ ∀ (j : Nat) (g : Handle α), j ≠ i → w.objs[j]? = some g → g.ref = r → g.Fixed)) :
    World.Inv (w.setIdsRef i h r b draws) env ∧ Acts env w (w.setIdsRef i h r b draws) i h (.setIds (w.listAt r) b draws) ∧
      Others w (w.setIdsRef i h r b draws) i := by
  have hR := I.reach hi
  obtain ⟨_, A, M, hA⟩ := hR.sim
  have hsame : Others w w i := fun j g _ hg => ⟨hg, rfl⟩
  simp only [World.setIdsRef]
  by_cases hb : Perc.badIds h.obj.lat.length (w.listAt r) = true
  · rw [if_pos hb]
    refine ⟨I, ⟨h, hi, rfl, ?_⟩, hsame⟩
    by_cases he : (w.listAt r).isEmpty = true
    · refine .inr ⟨.valueError, ?_, by decide, rfl⟩
      simp only [SqPerc.step, Perc.setCustomIds]
      rw [if_pos he]
    · refine .inl ?_
      simp only [SqPerc.step, Perc.setCustomIds]
      rw [if_neg he]
      exact if_pos hb
  · rw [if_neg hb]
    cases hc : (w.load h).setCustomIds (w.listAt r) b draws with
    | error e =>
      refine ⟨I, ⟨h, hi, rfl, .inr ⟨e, hc, ?_, rfl⟩⟩, hsame⟩
      rw [(((C71_set_lists hR b draws).1 _).1 hc).1]; decide
    | ok S =>
      have hSr : Reach env h.cls h.obj.lat.length S := .step (.setIds (w.listAt r) b draws) hR hc
      have hput := (I.on _).put (r := r) (S := S) hi hr hSr (by
        rcases hs with hs | ⟨rfl, hp, hs⟩
        · exact .inl hs
        · refine .inr ?_
          simp only [Perc.setCustomIds] at hc
          split at hc
          · cases hc
          · next hne =>
            rw [badIds_load, if_neg hb, shuffle_off rfl] at hc
            rw [Bool.not_eq_true, badIds_iff (by simpa using hne)] at hb
            have hc := Except.ok.inj hc
            subst hc
            refine ⟨?_, ⟨hp, rfl, rfl⟩, hs⟩
            show _ = some (((w.listAt r).map Int.toNat).map Int.ofNat)
            rw [map_ofNat_toNat fun x hx => (hb x hx).1]
            simp only [World.listAt, List.getElem?_eq_getElem hr, Option.getD_some])
      exact ⟨hput.1, ⟨_, hput.2.1, rfl, .inl (by rw [hput.2.2.1]; exact hc)⟩, hput.2.2.2⟩

theorem World.Inv.call {op : Op} (I : w.Inv env) (hi : w.objs[i]? = some h) (safe : Safe w (.call i op)) (hs : w.call env i h op = some w') :
    World.Inv w' env ∧ Acts env w w' i h op ∧ Others w w' i := by
  have hR := I.reach hi
  have plainOp : op.orders = false → (match SqPerc.step env h.cls (w.load h) op with
      | .ok S => some (w.inPlace i h S)
      | .error e => if e = .outOfFuel then none else some (w.inPlace i h (stepRaised env h.cls (w.load h) op))) = some w' →
      World.Inv w' env ∧ Acts env w w' i h op ∧ Others w w' i := by
    intro ho hs
    cases hst : SqPerc.step env h.cls (w.load h) op with
    | ok S =>
      rw [hst] at hs
      have hs := (Option.some.inj hs).symm
      subst hs
      have K := step_kept hR ho hst
      obtain ⟨h1, h2, h3, h4⟩ := I.inPlace (S := S) hi (.step op hR hst) (.inr fun hF => ⟨K.mode.trans hF.2.1, K.doSh.trans hF.2.2, K.plain hF.1⟩)
      exact ⟨h1, ⟨_, h2, rfl, .inl (by rw [h3]; exact hst)⟩, h4⟩
    | error e =>
      rw [hst] at hs
      by_cases he : e = .outOfFuel
      · exact absurd hs (by simp [he])
      · replace hs : (if e = .outOfFuel then none else some _) = some w' := hs
        rw [if_neg he] at hs
        have hs := (Option.some.inj hs).symm
        subst hs
        have K := stepRaised_kept hR ho hst
        obtain ⟨h1, h2, h3, h4⟩ := I.inPlace (S := stepRaised env h.cls (w.load h) op) hi (.caught op hR hst he)
          (.inr fun hF => ⟨K.mode.trans hF.2.1, K.doSh.trans hF.2.2, K.plain hF.1⟩)
        exact ⟨h1, ⟨_, h2, rfl, .inr ⟨e, hst, he, h3⟩⟩, h4⟩
  have hsame : Others w w i := fun j g _ hg => ⟨hg, rfl⟩
  cases op with
  | place d => exact plainOp rfl hs
  | detect => exact plainOp rfl hs
  | runOnce fuel ds => exact plainOp rfl hs
  | testRunOnce fuel ds => exact plainOp rfl hs
  | swapIds a b =>
    simp only [World.call] at hs
    have ha := safe h hi
    cases hst : SqPerc.step env h.cls (w.load h) (.swapIds a b) with
    | ok S =>
      rw [hst] at hs
      have hs := (Option.some.inj hs).symm
      subst hs
      obtain ⟨h1, h2, h3, h4⟩ := I.inPlace (S := S) hi (.step _ hR hst) (.inl ha)
      exact ⟨h1, ⟨_, h2, rfl, .inl (by rw [h3]; exact hst)⟩, h4⟩
    | error e =>
      rw [hst] at hs
      by_cases he : e = .outOfFuel
      · exact absurd hs (by simp [he])
      · replace hs : (if e = .outOfFuel then none else some _) = some w' := hs
        rw [if_neg he] at hs
        have hs := (Option.some.inj hs).symm
        subst hs
        obtain ⟨h1, h2, h3, h4⟩ := I.inPlace (S := stepRaised env h.cls (w.load h) (.swapIds a b)) hi (.caught _ hR hst he) (.inl ha)
        exact ⟨h1, ⟨_, h2, rfl, .inr ⟨e, hst, he, h3⟩⟩, h4⟩
  | setIds ids b draws =>
    simp only [World.call] at hs
    have hs := (Option.some.inj hs).symm
    subst hs
    obtain ⟨J, hJ⟩ := I.list ids
    have hl : ({ w with lists := w.lists ++ [ids] } : World α).listAt w.lists.length = ids := by simp [World.listAt]
    obtain ⟨h1, ⟨h', h2, h3, h4⟩, h5⟩ := J.setIdsRef (r := w.lists.length) (b := b) (draws := draws) hi (by simp)
      (.inl fun j g _ hg e => by have := I.bound (i := j) hg; omega)
    rw [hl, hJ hi] at h4
    exact ⟨h1, ⟨h', h2, h3, h4⟩, fun j g hj hg => ⟨(h5 j g hj hg).1, (h5 j g hj hg).2.trans (hJ hg)⟩⟩
  | setIndices idxs b draws =>
    simp only [World.call] at hs
    by_cases hb : Perc.badIds h.obj.lat.length (idxs.map h.obj.lat.calculateIdFromIndex) = true
    · rw [if_pos hb] at hs
      have hs := (Option.some.inj hs).symm
      subst hs
      refine ⟨I, ⟨h, hi, rfl, ?_⟩, hsame⟩
      by_cases he : (idxs.map h.obj.lat.calculateIdFromIndex).isEmpty = true
      · refine .inr ⟨.valueError, ?_, by decide, rfl⟩
        simp only [SqPerc.step, Perc.setCustomIndices]
        exact if_pos he
      · refine .inl ?_
        simp only [SqPerc.step, Perc.setCustomIndices]
        rw [badIds_load, if_neg he]
        exact if_pos hb
    · rw [if_neg hb] at hs
      cases hc : (w.load h).setCustomIndices idxs b draws with
      | error e =>
        rw [hc] at hs
        have hs := (Option.some.inj hs).symm
        subst hs
        refine ⟨I, ⟨h, hi, rfl, .inr ⟨e, hc, ?_, rfl⟩⟩, hsame⟩
        rw [(((C71_set_lists hR b draws).2 _).1 hc).1]; decide
      | ok S =>
        rw [hc] at hs
        have hs := (Option.some.inj hs).symm
        subst hs
        obtain ⟨h1, h2, h3, h4⟩ := (I.on _).rebind (S := S) hi (.step (.setIndices idxs b draws) hR hc)
        exact ⟨h1, ⟨_, h2, rfl, .inl (by rw [h3]; exact hc)⟩, h4⟩
  | shuffle draws =>
    simp only [World.call] at hs
    cases hc : (w.load h).shuffle draws with
    | error e => rw [hc] at hs; cases hs
    | ok S =>
      rw [hc] at hs
      have hs := (Option.some.inj hs).symm
      subst hs
      obtain ⟨k1, k2, _, k4⟩ := shuffle_kept hc
      obtain ⟨h1, h2, h3, h4⟩ := I.inPlace (S := S) hi (.step (.shuffle draws) hR hc) (.inr fun hF => ⟨k1.trans hF.2.1, k2.trans hF.2.2, k4 hF.2.2⟩)
      exact ⟨h1, ⟨_, h2, rfl, .inl (by rw [h3]; exact hc)⟩, h4⟩
  | reset draws =>
    simp only [World.call] at hs
    cases hb : (w.load h).resetBase draws with
    | error e => rw [hb] at hs; cases hs
    | ok B =>
      cases hc : (w.load h).reset env h.cls draws with
      | error e => rw [hb, hc] at hs; cases hs
      | ok S =>
        rw [hb, hc] at hs
        have hSr : Reach env h.cls h.obj.lat.length S := .step (.reset draws) hR hc
        obtain ⟨k1, k2, _, k4⟩ := resetBase_kept hb
        have plainCase : h.cls.plain = true → some (w.inPlace i h S) = some w' → World.Inv w' env ∧ Acts env w w' i h (.reset draws) ∧ Others w w' i := by
          intro hv hs
          have hs := (Option.some.inj hs).symm
          subst hs
          have e : S.modeCustom = B.modeCustom ∧ S.doShuffle = B.doShuffle ∧ S.siteIds = B.siteIds := by
            simp only [Perc.reset, hb] at hc
            cases hcl : h.cls <;> rw [hcl] at hc hv
            · have hc := (Except.ok.inj hc).symm; subst hc; exact ⟨rfl, rfl, rfl⟩
            · cases hv
            · cases hv
            · have hc := (Except.ok.inj hc).symm; subst hc; exact ⟨rfl, rfl, rfl⟩
          obtain ⟨h1, h2, h3, h4⟩ := I.inPlace (S := S) hi hSr
            (.inr fun hF => ⟨e.1.trans (k1.trans hF.2.1), e.2.1.trans (k2.trans hF.2.2), e.2.2.trans (k4 hF.2.2)⟩)
          exact ⟨h1, ⟨_, h2, rfl, .inl (by rw [h3]; exact hc)⟩, h4⟩
        have otherCase : h.cls.plain = false → some ((w.inPlace i h B).rebind i h S) = some w' →
            World.Inv w' env ∧ Acts env w w' i h (.reset draws) ∧ Others w w' i := by
          intro hv hs
          have hs := (Option.some.inj hs).symm
          subst hs
          have ha : w.Alone i h.ref := by
            intro j g hj hg e
            have := (I.share hj hg hi e).2.1
            rw [hv] at this
            cases this
          have J : World.InvOn (w.inPlace i h B) env (· ≠ i) := by
            have e1 : ∀ {j : Nat}, j ≠ i → (w.inPlace i h B).objs[j]? = w.objs[j]? := fun hj => List.getElem?_set_ne (fun e => hj e.symm)
            have e2 : ∀ {j : Nat} {g : Handle α}, j ≠ i → w.objs[j]? = some g → (w.inPlace i h B).lists[g.ref]? = w.lists[g.ref]? :=
              fun hj hg => List.getElem?_set_ne (fun e => ha _ _ hj hg e.symm)
            refine ⟨fun hj hg => ?_, fun hj hg => ?_, fun {j g} hj hg => ?_, fun hj hk hjk hg hf e => ?_⟩
            · rw [e1 hj] at hg
              rw [World.load_congr (e2 hj hg)]; exact I.reach hg
            · rw [e1 hj] at hg
              show _ < (w.lists.set _ _).length
              rw [List.length_set]; exact I.bound hg
            · rw [e1 hj] at hg
              have := I.nonneg hg
              simp only [World.listAt, e2 hj hg]
              exact this
            · rw [e1 hj] at hg
              rw [e1 hk] at hf
              exact I.share hjk hg hf e
          obtain ⟨h1, h2, h3, h4⟩ := J.rebind (h := h) (S := S) (h0 := ⟨h.cls, B, h.ref⟩) (getElem?_set_same (lt_of_get hi)) hSr
          refine ⟨h1, ⟨_, h2, rfl, .inl (by rw [h3]; exact hc)⟩, fun j g hj hg => ?_⟩
          have hg' : (w.inPlace i h B).objs[j]? = some g := by
            rw [← hg]; exact List.getElem?_set_ne (fun e => hj e.symm)
          refine ⟨(h4 j g hj hg').1, (h4 j g hj hg').2.trans (World.load_congr ?_)⟩
          exact List.getElem?_set_ne (fun e => ha _ _ hj hg e.symm)
        cases hcl : h.cls with
        | l0 => rw [hcl] at hs; exact plainCase (by rw [hcl]; rfl) hs
        | sp => rw [hcl] at hs; exact plainCase (by rw [hcl]; rfl) hs
        | l1 => rw [hcl] at hs; exact otherCase (by rw [hcl]; rfl) hs
        | l2 => rw [hcl] at hs; exact otherCase (by rw [hcl]; rfl) hs

theorem WReach.inv (hw : WReach env w) : w.Inv env := by
  induction hw with
  | nil => exact ⟨fun h => by simp at h, fun h => by simp at h, fun h => by simp at h, fun _ h => by simp at h⟩
  | @step w w' op _ safe hs I =>
    cases op with
    | list l => have hs := (Option.some.inj hs).symm; subst hs; exact (I.list l).1
    | call i op =>
      simp only [wstep] at hs
      split at hs
      · cases hs
      · next h hi => exact (I.call hi safe hs).1
    | setIds i r b draws =>
      simp only [wstep] at hs
      split at hs
      · next h l hi hr =>
        have hs := (Option.some.inj hs).symm
        subst hs
        refine (I.setIdsRef hi (List.getElem?_eq_some_iff.1 hr).1 ?_).1
        rcases safe with safe | ⟨hb, hp, hf⟩
        · exact .inl safe
        · exact .inr ⟨hb, hp h hi, hf⟩
      · cases hs
    | new v L draws =>
      simp only [wstep] at hs
      cases hn : Perc.new env L draws with
      | error e => rw [hn] at hs; have hs := (Option.some.inj hs).symm; subst hs; exact I
      | ok S =>
        rw [hn] at hs
        have hs := (Option.some.inj hs).symm
        subst hs
        obtain ⟨J, _⟩ := I.list (S.siteIds.map Int.ofNat)
        have hR : Reach env v L S := .new hn
        have hat : World.listAt { lists := w.lists ++ [S.siteIds.map Int.ofNat], objs := w.objs ++ [⟨v, S, w.lists.length⟩] } w.lists.length = S.siteIds.map Int.ofNat := by
          simp [World.listAt]
        have cs : ∀ {j : Nat} {g : Handle α}, (w.objs ++ [⟨v, S, w.lists.length⟩])[j]? = some g → w.objs[j]? = some g ∨ (j = w.objs.length ∧ g = ⟨v, S, w.lists.length⟩) := by
          intro j g hg
          rcases Nat.lt_trichotomy j w.objs.length with hj | hj | hj
          · rw [List.getElem?_append_left hj] at hg; exact .inl hg
          · subst hj; right; simpa [eq_comm] using hg
          · rw [List.getElem?_eq_none (by simp; omega)] at hg; cases hg
        refine ⟨fun {j g} hg => ?_, fun {j g} hg => ?_, fun {j g} hg => ?_, fun {j k g f} hjk hg hf e => ?_⟩
        · rcases cs hg with hg | ⟨rfl, rfl⟩
          · exact J.reach hg
          · have e : World.load { lists := w.lists ++ [S.siteIds.map Int.ofNat], objs := w.objs ++ [⟨v, S, w.lists.length⟩] } ⟨v, S, w.lists.length⟩ = S := by
              show { S with siteIds := (World.listAt _ w.lists.length).map Int.toNat } = S
              rw [hat, map_toNat_ofNat]
            rw [e]
            show Reach env v S.lat.length S
            rw [hR.latLength]; exact hR
        · rcases cs hg with hg | ⟨rfl, rfl⟩
          · exact J.bound hg
          · simp
        · rcases cs hg with hg | ⟨rfl, rfl⟩
          · exact J.nonneg hg
          · intro x hx
            replace hx : x ∈ World.listAt _ w.lists.length := hx
            rw [hat] at hx
            obtain ⟨n, _, rfl⟩ := List.mem_map.1 hx
            exact Int.natCast_nonneg n
        · rcases cs hg with hg | ⟨rfl, rfl⟩
          · rcases cs hf with hf | ⟨rfl, rfl⟩
            · exact I.share hjk hg hf e
            · have := I.bound hg
              have e : g.ref = w.lists.length := e
              omega
          · rcases cs hf with hf | ⟨rfl, rfl⟩
            · have := I.bound hf
              have e : w.lists.length = f.ref := e
              omega
            · exact absurd rfl hjk

/-! ### Theorems -/

/-- C74: however lists are passed around, as long as shared lists are not shuffled or overwritten, every object is in a state that an object
with a list of its own can be in.  So all that is proved about histories of one object holds for objects that share lists with others. -/
theorem C74_private (hw : WReach env w) (hi : w.objs[i]? = some h) : Reach env h.cls h.obj.lat.length (w.load h) := hw.inv.reach hi

/-- C74: a call has the effect it has on an object with a list of its own, and none on the other objects. -/
theorem C74_call (hw : WReach env w) (hi : w.objs[i]? = some h) {op : Op} (safe : Safe w (.call i op)) (hs : wstep env w (.call i op) = some w') :
    (∃ h' : Handle α, w'.objs[i]? = some h' ∧ h'.cls = h.cls ∧ (SqPerc.step env h.cls (w.load h) op = .ok (w'.load h') ∨
      ∃ e, SqPerc.step env h.cls (w.load h) op = .error e ∧ e ≠ .outOfFuel ∧ w'.load h' = stepRaised env h.cls (w.load h) op)) ∧
    ∀ (j : Nat) (g : Handle α), j ≠ i → w.objs[j]? = some g → w'.objs[j]? = some g ∧ w'.load g = w.load g := by
  simp only [wstep, hi] at hs
  exact (hw.inv.call hi safe hs).2

/-- C74: every call that returns or raises is covered by `C74_call`. -/
theorem C74_call_total (hw : WReach env w) (hi : w.objs[i]? = some h) (op : Op) (hf : SqPerc.step env h.cls (w.load h) op ≠ .error .outOfFuel) :
    ∃ w', wstep env w (.call i op) = some w' := by
  have hR := hw.inv.reach hi
  simp only [wstep, hi]
  have gen : ∃ w', (match SqPerc.step env h.cls (w.load h) op with
      | .ok S => some (w.inPlace i h S)
      | .error e => if e = .outOfFuel then none else some (w.inPlace i h (stepRaised env h.cls (w.load h) op))) = some w' := by
    cases hst : SqPerc.step env h.cls (w.load h) op with
    | ok S => exact ⟨_, rfl⟩
    | error e =>
      rw [hst] at hf
      exact ⟨_, if_neg fun e' => hf (by rw [e'])⟩
  cases op with
  | place d => exact gen
  | detect => exact gen
  | runOnce fuel ds => exact gen
  | testRunOnce fuel ds => exact gen
  | swapIds a b => exact gen
  | setIds ids b draws => exact ⟨_, rfl⟩
  | setIndices idxs b draws =>
    simp only [World.call]
    split
    · exact ⟨_, rfl⟩
    · split <;> exact ⟨_, rfl⟩
  | shuffle draws =>
    obtain ⟨S, hS⟩ := (C71_reset_shuffle hR draws).2
    simp only [World.call, hS]
    exact ⟨_, rfl⟩
  | reset draws =>
    obtain ⟨S, hS⟩ := (C71_reset_shuffle hR draws).1
    have hB : ∃ B, (w.load h).resetBase draws = .ok B := by
      simp only [Perc.reset] at hS
      cases hb : (w.load h).resetBase draws with
      | error e => rw [hb] at hS; cases hS
      | ok B => exact ⟨B, rfl⟩
    obtain ⟨B, hB⟩ := hB
    simp only [World.call, hS, hB]
    cases h.cls <;> exact ⟨_, rfl⟩

/-- C74: passing the list object `r` to `set_custome_site_id_list` has the effect that passing a copy has, and none on the other
objects. -/
theorem C74_set (hw : WReach env w) (hi : w.objs[i]? = some h) {l : List Int} (hr : w.lists[r]? = some l) {b : Bool} {draws : Nat → Nat}
    (safe : Safe w (.setIds i r b draws)) (hs : wstep env w (.setIds i r b draws) = some w') :
    (∃ h' : Handle α, w'.objs[i]? = some h' ∧ h'.cls = h.cls ∧ (SqPerc.step env h.cls (w.load h) (.setIds l b draws) = .ok (w'.load h') ∨
      l = [] ∧ w' = w)) ∧
    ∀ (j : Nat) (g : Handle α), j ≠ i → w.objs[j]? = some g → w'.objs[j]? = some g ∧ w'.load g = w.load g := by
  simp only [wstep, hi, hr] at hs
  have hs := (Option.some.inj hs).symm
  subst hs
  have hl : w.listAt r = l := by simp [World.listAt, hr]
  obtain ⟨_, ⟨h', h1, h2, h3⟩, h4⟩ := hw.inv.setIdsRef (b := b) (draws := draws) hi (List.getElem?_eq_some_iff.1 hr).1 (by
    rcases safe with safe | ⟨hb, hp, hf⟩
    · exact .inl safe
    · exact .inr ⟨hb, hp h hi, hf⟩)
  refine ⟨⟨h', h1, h2, ?_⟩, h4⟩
  rw [hl] at h3
  rcases h3 with h3 | ⟨e, h3, _, _⟩
  · exact .inl h3
  · have he := (((C71_set_lists (hw.inv.reach hi) b draws).1 _).1 h3).2
    refine .inr ⟨he, ?_⟩
    subst he
    simp only [World.setIdsRef, hl, Perc.setCustomIds]
    split <;> rfl

/-! ### The lists the caller sees -/

theorem swapIds_length {S S' : Perc α} {a b : Nat} (hs : S.swapIds a b = .ok S') : S'.siteIds.length = S.siteIds.length := by
  simp only [Perc.swapIds] at hs
  split at hs
  · rw [← Except.ok.inj hs]
  · cases h1 : pyGet S.revIds a with
    | error e => rw [h1] at hs; cases hs
    | ok ix1 =>
      cases h2 : pyGet S.revIds b with
      | error e => rw [h1, h2] at hs; cases hs
      | ok ix2 =>
        rw [h1, h2] at hs
        replace hs : (pyModify S.siteIds ix1 (fun _ => b) >>= _) = _ := hs
        cases h3 : pyModify S.siteIds ix1 (fun _ => b) with
        | error e => rw [h3] at hs; cases hs
        | ok ids =>
          rw [h3] at hs
          replace hs : (pyModify ids ix2 (fun _ => a) >>= _) = _ := hs
          cases h4 : pyModify ids ix2 (fun _ => a) with
          | error e => rw [h4] at hs; cases hs
          | ok ids' =>
            rw [h4] at hs
            replace hs : (pyModify S.revIds b (fun _ => ix1) >>= _) = _ := hs
            cases h5 : pyModify S.revIds b (fun _ => ix1) with
            | error e => rw [h5] at hs; cases hs
            | ok rev =>
              rw [h5] at hs
              replace hs : (pyModify rev a (fun _ => ix2) >>= _) = _ := hs
              cases h6 : pyModify rev a (fun _ => ix2) with
              | error e => rw [h6] at hs; cases hs
              | ok rev' =>
                rw [h6] at hs
                rw [← Except.ok.inj hs]
                show ids'.length = _
                obtain ⟨_, _, rfl⟩ := pyModify_inv h4
                obtain ⟨_, _, rfl⟩ := pyModify_inv h3
                simp

/-- What a call may do to a list object: it keeps the length, brings no new entries (except `swap_ids`), and reorders the list or leaves it as it
is unless it is one of the calls named in `Overwrites` and `Changes`. -/
def Effect (w : World α) (i r : Nat) (op : Op) (l l' : List Int) : Prop :=
  l'.length = l.length ∧ ((∀ a b, op ≠ .swapIds a b) → ∀ x ∈ l', x ∈ l) ∧
    (¬ Overwrites w r (.call i op) → l'.Perm l) ∧ (¬ Changes w r (.call i op) → l' = l)

/-- What one call does to a list object: nothing unless the object refers to it. -/
theorem World.call_lists {L : Nat} {op : Op} (hR : Reach env h.cls L (w.load h)) (hn : ∀ x ∈ w.listAt h.ref, 0 ≤ x) (hi : w.objs[i]? = some h)
    (hs : w.call env i h op = some w') {l : List Int} (hr : w.lists[r]? = some l) : ∃ l', w'.lists[r]? = some l' ∧ Effect w i r op l l' := by
  have hrl : r < w.lists.length := (List.getElem?_eq_some_iff.1 hr).1
  have same : w'.lists[r]? = some l → ∃ l', w'.lists[r]? = some l' ∧ Effect w i r op l l' :=
    fun e => ⟨l, e, rfl, fun _ _ h => h, fun _ => .refl _, fun _ => rfl⟩
  have hl : h.ref = r → l = (w.load h).siteIds.map Int.ofNat := by
    intro e
    subst e
    have hat : w.listAt h.ref = l := by simp [World.listAt, hr]
    show l = ((w.listAt h.ref).map Int.toNat).map Int.ofNat
    rw [map_ofNat_toNat hn, hat]
  have put : ∀ {S : Perc α} {W : List (List Int)}, W = w.lists.set h.ref (S.siteIds.map Int.ofNat) → S.siteIds.length = (w.load h).siteIds.length →
      ((∀ a b, op ≠ .swapIds a b) → ∀ k ∈ S.siteIds, k ∈ (w.load h).siteIds) →
      (¬ Overwrites w h.ref (.call i op) → S.siteIds.Perm (w.load h).siteIds) → (¬ Changes w h.ref (.call i op) → S.siteIds = (w.load h).siteIds) →
      ∃ l', W[r]? = some l' ∧ Effect w i r op l l' := by
    intro S W e e1 e2 e3 e4
    by_cases hre : h.ref = r
    · rw [hl hre]
      subst hre
      refine ⟨_, by rw [e]; exact getElem?_set_same hrl, by simpa using e1, fun hop x hx => ?_, fun ho => (e3 ho).map _, fun ho => by rw [e4 ho]⟩
      obtain ⟨k, hk, rfl⟩ := List.mem_map.1 hx
      exact List.mem_map.2 ⟨k, e2 hop k hk, rfl⟩
    · exact ⟨l, by rw [e, List.getElem?_set_ne hre]; exact hr, rfl, fun _ _ h => h, fun _ => .refl _, fun _ => rfl⟩
  have runs : op.orders = false → (op = .detect ∨ (Overwrites w h.ref (.call i op) ↔ h.cls.plain = false)) → (Overwrites w h.ref (.call i op) → Changes w h.ref (.call i op)) →
      (match SqPerc.step env h.cls (w.load h) op with
      | .ok S => some (w.inPlace i h S)
      | .error e => if e = .outOfFuel then none else some (w.inPlace i h (stepRaised env h.cls (w.load h) op))) = some w' →
      ∃ l', w'.lists[r]? = some l' ∧ Effect w i r op l l' := by
    intro ho how hoc hs
    have fin : ∀ {S : Perc α}, Kept h.cls (w.load h) S → (op = .detect → S.siteIds = (w.load h).siteIds) → some (w.inPlace i h S) = some w' →
        ∃ l', w'.lists[r]? = some l' ∧ Effect w i r op l l' := by
      intro S K hd hs
      have hs := (Option.some.inj hs).symm
      subst hs
      have eq : ¬ Overwrites w h.ref (.call i op) → S.siteIds = (w.load h).siteIds := by
        intro hn
        rcases how with hde | how
        · exact hd hde
        · rw [how, Bool.not_eq_false] at hn
          exact K.plain hn
      exact put rfl K.len (fun _ => K.mem) (fun hn => by rw [eq hn]) (fun hn => eq fun ho => hn (hoc ho))
    cases hst : SqPerc.step env h.cls (w.load h) op with
    | ok S =>
      rw [hst] at hs
      refine fin (step_kept hR ho hst) ?_ hs
      rintro rfl
      simp only [SqPerc.step] at hst
      cases h1 : (w.load h).detectWrapping with
      | error e => rw [h1] at hst; cases hst
      | ok q =>
        rw [h1] at hst
        rw [← Except.ok.inj hst]
        obtain ⟨_, A, M, hA⟩ := hR.sim
        exact (detect_kept (v := .l0) M hA (w := q.2) h1).plain rfl
    | error e =>
      rw [hst] at hs
      by_cases he : e = .outOfFuel
      · exact absurd hs (by simp [he])
      · replace hs : (if e = .outOfFuel then none else some _) = some w' := hs
        rw [if_neg he] at hs
        exact fin (stepRaised_kept hR ho hst) (by rintro rfl; rfl) hs
  have bool : ∀ {b : Bool}, ¬ b = true → b = false := fun h => by simpa using h
  cases op with
  | place d =>
    exact runs rfl (.inr ⟨fun ⟨g, hg, _, e⟩ => by rw [hi] at hg; cases hg; exact e, fun e => ⟨h, hi, rfl, e⟩⟩) (fun ⟨g, hg, e, e'⟩ => ⟨g, hg, e, e'⟩) hs
  | detect => exact runs rfl (.inl rfl) (fun ⟨g, hg, e, e'⟩ => e'.elim) hs
  | runOnce fuel ds =>
    exact runs rfl (.inr ⟨fun ⟨g, hg, _, e⟩ => by rw [hi] at hg; cases hg; exact e, fun e => ⟨h, hi, rfl, e⟩⟩) (fun ⟨g, hg, e, e'⟩ => ⟨g, hg, e, e'⟩) hs
  | testRunOnce fuel ds =>
    exact runs rfl (.inr ⟨fun ⟨g, hg, _, e⟩ => by rw [hi] at hg; cases hg; exact e, fun e => ⟨h, hi, rfl, e⟩⟩) (fun ⟨g, hg, e, e'⟩ => ⟨g, hg, e, e'⟩) hs
  | swapIds a b =>
    have hO : Overwrites w h.ref (.call i (.swapIds a b)) := ⟨h, hi, rfl, trivial⟩
    have hC : Changes w h.ref (.call i (.swapIds a b)) := ⟨h, hi, rfl, trivial⟩
    simp only [World.call] at hs
    cases hst : SqPerc.step env h.cls (w.load h) (.swapIds a b) with
    | ok S =>
      rw [hst] at hs
      have hs := (Option.some.inj hs).symm
      subst hs
      exact put rfl (swapIds_length hst) (fun hn => absurd rfl (hn a b)) (fun hn => absurd hO hn) (fun hn => absurd hC hn)
    | error e =>
      rw [hst] at hs
      by_cases he : e = .outOfFuel
      · exact absurd hs (by simp [he])
      · replace hs : (if e = .outOfFuel then none else some _) = some w' := hs
        rw [if_neg he] at hs
        have hs := (Option.some.inj hs).symm
        subst hs
        refine put rfl ?_ (fun hn => absurd rfl (hn a b)) (fun hn => absurd hO hn) (fun hn => absurd hC hn)
        show ((w.load h).swapRaised a b).siteIds.length = _
        simp only [Perc.swapRaised]
        split
        · exact List.length_set
        · rfl
  | setIds ids b draws =>
    simp only [World.call] at hs
    have hs := (Option.some.inj hs).symm
    subst hs
    refine same ?_
    have e0 : (w.lists ++ [ids])[r]? = some l := by rw [List.getElem?_append_left hrl]; exact hr
    simp only [World.setIdsRef]
    split
    · exact e0
    · split
      · exact e0
      · show ((w.lists ++ [ids]).set w.lists.length _)[r]? = some l
        rw [List.getElem?_set_ne (by omega)]; exact e0
  | setIndices idxs b draws =>
    simp only [World.call] at hs
    refine same ?_
    split at hs
    · have hs := (Option.some.inj hs).symm; subst hs; exact hr
    · split at hs
      · have hs := (Option.some.inj hs).symm; subst hs; exact hr
      · have hs := (Option.some.inj hs).symm
        subst hs
        show (w.lists ++ _)[r]? = some l
        rw [List.getElem?_append_left hrl]; exact hr
  | shuffle draws =>
    simp only [World.call] at hs
    cases hc : (w.load h).shuffle draws with
    | error e => rw [hc] at hs; cases hs
    | ok S =>
      rw [hc] at hs
      have hs := (Option.some.inj hs).symm
      subst hs
      obtain ⟨_, _, k3, k4⟩ := shuffle_kept hc
      exact put rfl k3.length_eq (fun _ k hk => k3.mem_iff.1 hk) (fun _ => k3) (fun hn => k4 (bool fun e => hn ⟨h, hi, rfl, e⟩))
  | reset draws =>
    simp only [World.call] at hs
    cases hb : (w.load h).resetBase draws with
    | error e => rw [hb] at hs; cases hs
    | ok B =>
      cases hc : (w.load h).reset env h.cls draws with
      | error e => rw [hb, hc] at hs; cases hs
      | ok S =>
        rw [hb, hc] at hs
        obtain ⟨_, _, k3, k4⟩ := resetBase_kept hb
        have plainCase : S.siteIds = B.siteIds → some (w.inPlace i h S) = some w' → ∃ l', w'.lists[r]? = some l' ∧ Effect w i r (.reset draws) l l' := fun e hs => by
          have hs := (Option.some.inj hs).symm
          subst hs
          exact put rfl (by rw [e]; exact k3.length_eq) (fun _ k hk => k3.mem_iff.1 (by rw [← e]; exact hk)) (fun _ => by rw [e]; exact k3)
            (fun hn => by rw [e]; exact k4 (bool fun e => hn ⟨h, hi, rfl, e⟩))
        have otherCase : some ((w.inPlace i h B).rebind i h S) = some w' → ∃ l', w'.lists[r]? = some l' ∧ Effect w i r (.reset draws) l l' := fun hs => by
          have hs := (Option.some.inj hs).symm
          subst hs
          obtain ⟨l', g1, g2⟩ := put (S := B) (W := (w.inPlace i h B).lists) rfl k3.length_eq (fun _ k hk => k3.mem_iff.1 hk) (fun _ => k3)
            (fun hn => k4 (bool fun e => hn ⟨h, hi, rfl, e⟩))
          refine ⟨l', ?_, g2⟩
          show ((w.inPlace i h B).lists ++ _)[r]? = some l'
          rw [List.getElem?_append_left (List.getElem?_eq_some_iff.1 g1).1]; exact g1
        simp only [Perc.reset, hb] at hc
        cases hcl : h.cls with
        | l0 => rw [hcl] at hs hc; exact plainCase (by rw [← Except.ok.inj hc]) hs
        | sp => rw [hcl] at hs hc; exact plainCase (by rw [← Except.ok.inj hc]) hs
        | l1 => rw [hcl] at hs; exact otherCase hs
        | l2 => rw [hcl] at hs; exact otherCase hs

theorem World.Inv.call_lists {op : Op} (I : w.Inv env) (hi : w.objs[i]? = some h) (hs : w.call env i h op = some w') {l : List Int} (hr : w.lists[r]? = some l) :
    ∃ l', w'.lists[r]? = some l' ∧ Effect w i r op l l' := World.call_lists (I.reach hi) (I.nonneg hi) hi hs hr

/-- An accepted list: the object refers to it afterwards, and the value of the list is the order the object works with. -/
theorem World.setIds_lists {s : Nat} {b : Bool} {draws : Nat → Nat} :
    w.setIdsRef i h s b draws = w ∨
    ∃ S, (w.load h).setCustomIds (w.listAt s) b draws = .ok S ∧ S.siteIds.Perm ((w.listAt s).map Int.toNat) ∧ (b = false → S.siteIds = (w.listAt s).map Int.toNat) ∧
      S.modeCustom = true ∧ S.doShuffle = b ∧
      (∀ x ∈ w.listAt s, 0 ≤ x ∧ x < (h.obj.lat.length : Int) * h.obj.lat.length) ∧
      w.setIdsRef i h s b draws = { lists := w.lists.set s (S.siteIds.map Int.ofNat), objs := w.objs.set i { h with obj := S, ref := s } } := by
  by_cases hb : Perc.badIds h.obj.lat.length (w.listAt s) = true
  · left; simp only [World.setIdsRef]; rw [if_pos hb]
  · cases hc : (w.load h).setCustomIds (w.listAt s) b draws with
    | error e => left; simp only [World.setIdsRef]; rw [if_neg hb, hc]
    | ok S =>
      right
      refine ⟨S, rfl, ?_⟩
      have e : w.setIdsRef i h s b draws = { lists := w.lists.set s (S.siteIds.map Int.ofNat), objs := w.objs.set i { h with obj := S, ref := s } } := by
        simp only [World.setIdsRef]; rw [if_neg hb, hc]
      simp only [Perc.setCustomIds] at hc
      split at hc
      · cases hc
      · next hne =>
        rw [badIds_load, if_neg hb] at hc
        rw [Bool.not_eq_true, badIds_iff (by simpa using hne)] at hb
        obtain ⟨k1, k2, k3, k4⟩ := shuffle_kept hc
        exact ⟨k3, k4, k1, k2, hb, e⟩

/-- C74: what an action of the caller does to a list object: it keeps its length; new entries are brought in by `swap_ids` only; the
list is reordered at most, except by the calls in `Overwrites` (`swap_ids`, placements of L1 and L2) on an object that refers to it; and it is
left alone except by the calls in `Changes`. -/
theorem C74_lists (hw : WReach env w) {op : WOp} (hs : wstep env w op = some w') {l : List Int} (hr : w.lists[r]? = some l) :
    ∃ l', w'.lists[r]? = some l' ∧ l'.length = l.length ∧ ((∀ i a b, op ≠ .call i (.swapIds a b)) → ∀ x ∈ l', x ∈ l) ∧
      (¬ Overwrites w r op → l'.Perm l) ∧ (¬ Changes w r op → l' = l) := by
  have hrl : r < w.lists.length := (List.getElem?_eq_some_iff.1 hr).1
  have same : w'.lists[r]? = some l → ∃ l', w'.lists[r]? = some l' ∧ l'.length = l.length ∧ ((∀ i a b, op ≠ .call i (.swapIds a b)) → ∀ x ∈ l', x ∈ l) ∧
      (¬ Overwrites w r op → l'.Perm l) ∧ (¬ Changes w r op → l' = l) := fun e => ⟨l, e, rfl, fun _ _ h => h, fun _ => .refl _, fun _ => rfl⟩
  cases op with
  | new v L draws =>
    simp only [wstep] at hs
    split at hs
    · have hs := (Option.some.inj hs).symm
      subst hs
      exact same (by show (w.lists ++ _)[r]? = _; rw [List.getElem?_append_left hrl]; exact hr)
    · have hs := (Option.some.inj hs).symm; subst hs; exact same hr
  | list m =>
    have hs := (Option.some.inj hs).symm
    subst hs
    exact same (by show (w.lists ++ _)[r]? = _; rw [List.getElem?_append_left hrl]; exact hr)
  | call i op =>
    simp only [wstep] at hs
    split at hs
    · cases hs
    · next h hi =>
      obtain ⟨l', h1, h2, h3, h4, h5⟩ := hw.inv.call_lists hi hs hr
      exact ⟨l', h1, h2, fun hn => h3 fun a b e => hn i a b (by rw [e]), h4, h5⟩
  | setIds i s b draws =>
    simp only [wstep] at hs
    split at hs
    · next h m hi hsm =>
      have hs := (Option.some.inj hs).symm
      subst hs
      rcases World.setIds_lists (w := w) (i := i) (h := h) (s := s) (b := b) (draws := draws) with e | ⟨S, _, k3, k4, _, _, hb, e⟩
      · exact same (by rw [e]; exact hr)
      · by_cases hsr : s = r
        · subst hsr
          have hat : w.listAt s = l := by simp [World.listAt, hr]
          rw [hat] at k3 k4 hb
          have hl : (l.map Int.toNat).map Int.ofNat = l := map_ofNat_toNat fun x hx => (hb x hx).1
          have hp : (S.siteIds.map Int.ofNat).Perm l := by
            have := k3.map Int.ofNat
            rw [hl] at this
            exact this
          refine ⟨S.siteIds.map Int.ofNat, by rw [e]; exact getElem?_set_same hrl, hp.length_eq, fun _ x hx => hp.mem_iff.1 hx, fun _ => hp, fun hc => ?_⟩
          rw [k4 (by cases b with | false => rfl | true => exact absurd ⟨rfl, rfl⟩ hc), hl]
        · exact same (by rw [e]; show (w.lists.set s _)[r]? = _; rw [List.getElem?_set_ne hsr]; exact hr)
    · cases hs

/-- C74: an accepted list is kept by reference: the caller's list and the order of the object are the same list from then on. -/
theorem C74_set_reference (hw : WReach env w) (hi : w.objs[i]? = some h) {l : List Int} (hr : w.lists[r]? = some l) (hne : l ≠ [])
    (hids : ∀ x ∈ l, 0 ≤ x ∧ x < (h.obj.lat.length : Int) * h.obj.lat.length) {b : Bool} {draws : Nat → Nat} :
    ∃ w' h', wstep env w (.setIds i r b draws) = some w' ∧ w'.objs[i]? = some h' ∧ h'.ref = r ∧ w'.lists[r]? = some ((w'.load h').siteIds.map Int.ofNat) := by
  have hrl : r < w.lists.length := (List.getElem?_eq_some_iff.1 hr).1
  have hat : w.listAt r = l := by simp [World.listAt, hr]
  have hbad : ¬ Perc.badIds h.obj.lat.length l = true := by rw [Bool.not_eq_true, badIds_iff hne]; exact hids
  have hR := hw.inv.reach hi
  cases hc : (w.load h).setCustomIds l b draws with
  | error e => exact absurd (((C71_set_lists hR b draws).1 _).1 hc).2 hne
  | ok S =>
    have e : wstep env w (.setIds i r b draws) = some { lists := w.lists.set r (S.siteIds.map Int.ofNat), objs := w.objs.set i { h with obj := S, ref := r } } := by
      simp only [wstep, hi, hr, World.setIdsRef, hat]
      rw [if_neg hbad, hc]
    refine ⟨_, ⟨h.cls, S, r⟩, e, getElem?_set_same (lt_of_get hi), rfl, ?_⟩
    show (w.lists.set r _)[r]? = some (((World.listAt { lists := w.lists.set r _, objs := _ } r).map Int.toNat).map Int.ofNat)
    simp only [World.listAt]
    rw [getElem?_set_same hrl, Option.getD_some, map_toNat_ofNat]

/-- C74: `set_custome_site_index_list` makes a list of its own, whatever it is given. -/
theorem C74_set_indices (hw : WReach env w) (hi : w.objs[i]? = some h) {idxs : List (List Int)} {b : Bool} {draws : Nat → Nat}
    (hs : wstep env w (.call i (.setIndices idxs b draws)) = some w') :
    w' = w ∨ ∃ h', w'.objs[i]? = some h' ∧ h'.ref = w.lists.length ∧ w'.lists.length = w.lists.length + 1 := by
  have _ := hw
  simp only [wstep, hi, World.call] at hs
  split at hs
  · exact .inl (Option.some.inj hs).symm
  · split at hs
    · exact .inl (Option.some.inj hs).symm
    · next S _ =>
      have hs := (Option.some.inj hs).symm
      subst hs
      exact .inr ⟨_, getElem?_set_same (lt_of_get hi), rfl, by simp [World.rebind]⟩

/-- C74: `reset()` of the plain classes goes on with the same list object: what `get_site_id_sequence()` has returned before the reset is
afterwards the order of the next realisation. -/
theorem C74_reset_plain (hw : WReach env w) (hi : w.objs[i]? = some h) (hv : h.cls.plain = true) (draws : Nat → Nat) :
    ∃ w' h', wstep env w (.call i (.reset draws)) = some w' ∧ w'.objs[i]? = some h' ∧ h'.ref = h.ref ∧
      w'.lists[h.ref]? = some ((w'.load h').siteIds.map Int.ofNat) := by
  obtain ⟨S, hS⟩ := (C71_reset_shuffle (hw.inv.reach hi) draws).1
  have hB : ∃ B, (w.load h).resetBase draws = .ok B := by
    simp only [Perc.reset] at hS
    cases hb : (w.load h).resetBase draws with
    | error e => rw [hb] at hS; cases hS
    | ok B => exact ⟨B, rfl⟩
  obtain ⟨B, hB⟩ := hB
  have e : wstep env w (.call i (.reset draws)) = some (w.inPlace i h S) := by
    simp only [wstep, hi, World.call, hS, hB]
    cases hcl : h.cls <;> rw [hcl] at hv <;> first | rfl | cases hv
  refine ⟨_, ⟨h.cls, S, h.ref⟩, e, getElem?_set_same (lt_of_get hi), rfl, ?_⟩
  show (w.lists.set h.ref _)[h.ref]? = some (((World.listAt { lists := w.lists.set h.ref _, objs := _ } h.ref).map Int.toNat).map Int.ofNat)
  simp only [World.listAt]
  rw [getElem?_set_same (hw.inv.bound hi), Option.getD_some, map_toNat_ofNat]

/-- C74: `reset()` of L1 and L2 reorders the old list if shuffling is on (`C74_lists`) and then goes on with a new list object. -/
theorem C74_reset_l1l2 (hw : WReach env w) (hi : w.objs[i]? = some h) (hv : h.cls.plain = false) (draws : Nat → Nat) :
    ∃ w' h', wstep env w (.call i (.reset draws)) = some w' ∧ w'.objs[i]? = some h' ∧ h'.ref = w.lists.length ∧ w'.lists.length = w.lists.length + 1 ∧
      w'.lists[h'.ref]? = some ((List.range (h.obj.lat.length ^ 2)).map Int.ofNat) := by
  obtain ⟨S, hS⟩ := (C71_reset_shuffle (hw.inv.reach hi) draws).1
  have hR := hw.inv.reach hi
  have hB : ∃ B, (w.load h).resetBase draws = .ok B ∧ S.siteIds = List.range (B.lat.length ^ 2) ∧ S.lat = B.lat := by
    simp only [Perc.reset] at hS
    cases hb : (w.load h).resetBase draws with
    | error e => rw [hb] at hS; cases hS
    | ok B =>
      rw [hb] at hS
      refine ⟨B, rfl, ?_⟩
      cases hcl : h.cls <;> rw [hcl] at hv hS <;> first | cases hv | skip
      · rw [← Except.ok.inj hS]; exact ⟨rfl, rfl⟩
      · rw [← Except.ok.inj hS]; exact ⟨rfl, rfl⟩
  obtain ⟨B, hB, hids, hlat⟩ := hB
  have hlen : S.lat.length = h.obj.lat.length := (Reach.step (.reset draws) hR hS).latLength
  have e : wstep env w (.call i (.reset draws)) = some ((w.inPlace i h B).rebind i h S) := by
    simp only [wstep, hi, World.call, hS, hB]
    cases hcl : h.cls <;> rw [hcl] at hv <;> first | rfl | cases hv
  have hl : (w.inPlace i h B).lists.length = w.lists.length := List.length_set
  refine ⟨_, ⟨h.cls, S, (w.inPlace i h B).lists.length⟩, e, ?_, hl, ?_, ?_⟩
  · exact getElem?_set_same (by show i < (w.objs.set i _).length; rw [List.length_set]; exact lt_of_get hi)
  · show ((w.inPlace i h B).lists ++ _).length = _
    rw [List.length_append, hl]; rfl
  · show ((w.inPlace i h B).lists ++ [S.siteIds.map Int.ofNat])[(w.inPlace i h B).lists.length]? = _
    rw [List.getElem?_concat_length, hids, ← hlat, hlen]

/-- What the caller has to avoid so that a list stays as it is: giving it to L1 or L2 or with `do_shuffle=True`, and calling `swap_ids` on an
object that works with it. -/
def Gentle (w : World α) (r : Nat) : WOp → Prop
  | .setIds i s b _ => s = r → b = false ∧ ∀ h : Handle α, w.objs[i]? = some h → h.cls.plain = true
  | .call i (.swapIds _ _) => ∀ h : Handle α, w.objs[i]? = some h → h.ref ≠ r
  | _ => True

/-- Sequences of such actions. -/
inductive Gently (env : Env α) (r : Nat) : World α → World α → Prop
  | refl {w : World α} : Gently env r w w
  | step {w w1 w2 : World α} (op : WOp) : Gently env r w w1 → Safe w1 op → Gentle w1 r op → wstep env w1 op = some w2 → Gently env r w w2

theorem World.call_handle {L : Nat} {op : Op} (hR : Reach env h.cls L (w.load h)) (hi : w.objs[i]? = some h) (hs : w.call env i h op = some w') :
    (∀ j, j ≠ i → w'.objs[j]? = w.objs[j]?) ∧ ∃ h', w'.objs[i]? = some h' ∧ h'.cls = h.cls ∧ (w.lists.length ≤ h'.ref ∨
      (h'.ref = h.ref ∧ h'.obj.modeCustom = h.obj.modeCustom ∧ h'.obj.doShuffle = h.obj.doShuffle)) := by
  have hil := lt_of_get hi
  have oth : ∀ {x : Handle α} {j : Nat}, j ≠ i → (w.objs.set i x)[j]? = w.objs[j]? := fun hj => List.getElem?_set_ne (fun e => hj e.symm)
  have put : ∀ {S : Perc α}, S.modeCustom = h.obj.modeCustom → S.doShuffle = h.obj.doShuffle → some (w.inPlace i h S) = some w' →
      (∀ j, j ≠ i → w'.objs[j]? = w.objs[j]?) ∧ ∃ h', w'.objs[i]? = some h' ∧ h'.cls = h.cls ∧ (w.lists.length ≤ h'.ref ∨
      (h'.ref = h.ref ∧ h'.obj.modeCustom = h.obj.modeCustom ∧ h'.obj.doShuffle = h.obj.doShuffle)) := by
    intro S e1 e2 hs
    have hs := (Option.some.inj hs).symm
    subst hs
    exact ⟨fun j hj => oth hj, _, getElem?_set_same hil, rfl, .inr ⟨rfl, e1, e2⟩⟩
  have runs : op.orders = false → (match SqPerc.step env h.cls (w.load h) op with
      | .ok S => some (w.inPlace i h S)
      | .error e => if e = .outOfFuel then none else some (w.inPlace i h (stepRaised env h.cls (w.load h) op))) = some w' →
      (∀ j, j ≠ i → w'.objs[j]? = w.objs[j]?) ∧ ∃ h', w'.objs[i]? = some h' ∧ h'.cls = h.cls ∧ (w.lists.length ≤ h'.ref ∨
      (h'.ref = h.ref ∧ h'.obj.modeCustom = h.obj.modeCustom ∧ h'.obj.doShuffle = h.obj.doShuffle)) := by
    intro ho hs
    cases hst : SqPerc.step env h.cls (w.load h) op with
    | ok S => rw [hst] at hs; have K := step_kept hR ho hst; exact put K.mode K.doSh hs
    | error e =>
      rw [hst] at hs
      by_cases he : e = .outOfFuel
      · exact absurd hs (by simp [he])
      · replace hs : (if e = .outOfFuel then none else some _) = some w' := hs
        rw [if_neg he] at hs
        have K := stepRaised_kept hR ho hst
        exact put K.mode K.doSh hs
  have stay : ∀ {W : List (List Int)}, w' = { w with lists := W } → (∀ j, j ≠ i → w'.objs[j]? = w.objs[j]?) ∧ ∃ h', w'.objs[i]? = some h' ∧ h'.cls = h.cls ∧
      (w.lists.length ≤ h'.ref ∨ (h'.ref = h.ref ∧ h'.obj.modeCustom = h.obj.modeCustom ∧ h'.obj.doShuffle = h.obj.doShuffle)) := by
    intro W e
    subst e
    exact ⟨fun _ _ => rfl, h, hi, rfl, .inr ⟨rfl, rfl, rfl⟩⟩
  cases op with
  | place d => exact runs rfl hs
  | detect => exact runs rfl hs
  | runOnce fuel ds => exact runs rfl hs
  | testRunOnce fuel ds => exact runs rfl hs
  | swapIds a b =>
    simp only [World.call] at hs
    cases hst : SqPerc.step env h.cls (w.load h) (.swapIds a b) with
    | ok S =>
      rw [hst] at hs
      obtain ⟨ids, rev, e, _⟩ := swapIds_kept (L := h.obj.lat.length) hst
      exact put (S := S) (by rw [e]; rfl) (by rw [e]; rfl) hs
    | error e =>
      rw [hst] at hs
      by_cases he : e = .outOfFuel
      · exact absurd hs (by simp [he])
      · replace hs : (if e = .outOfFuel then none else some _) = some w' := hs
        rw [if_neg he] at hs
        obtain ⟨ids, e⟩ := swapRaised_form (w.load h) a b
        have e' : stepRaised env h.cls (w.load h) (.swapIds a b) = { w.load h with siteIds := ids } := e
        rw [e'] at hs
        exact put (S := { w.load h with siteIds := ids }) rfl rfl hs
  | setIds ids b draws =>
    simp only [World.call] at hs
    have hs := (Option.some.inj hs).symm
    simp only [World.setIdsRef] at hs
    split at hs
    · exact stay hs
    · split at hs
      · exact stay hs
      · subst hs
        exact ⟨fun j hj => oth hj, _, getElem?_set_same hil, rfl, .inl (Nat.le_refl _)⟩
  | setIndices idxs b draws =>
    simp only [World.call] at hs
    split at hs
    · exact stay (Option.some.inj hs).symm
    · split at hs
      · exact stay (Option.some.inj hs).symm
      · have hs := (Option.some.inj hs).symm
        subst hs
        exact ⟨fun j hj => oth hj, _, getElem?_set_same hil, rfl, .inl (Nat.le_refl _)⟩
  | shuffle draws =>
    simp only [World.call] at hs
    cases hc : (w.load h).shuffle draws with
    | error e => rw [hc] at hs; cases hs
    | ok S =>
      rw [hc] at hs
      obtain ⟨k1, k2, _, _⟩ := shuffle_kept hc
      exact put k1 k2 hs
  | reset draws =>
    simp only [World.call] at hs
    cases hb : (w.load h).resetBase draws with
    | error e => rw [hb] at hs; cases hs
    | ok B =>
      cases hc : (w.load h).reset env h.cls draws with
      | error e => rw [hb, hc] at hs; cases hs
      | ok S =>
        rw [hb, hc] at hs
        obtain ⟨k1, k2, _, _⟩ := resetBase_kept hb
        have otherCase : some ((w.inPlace i h B).rebind i h S) = some w' → (∀ j, j ≠ i → w'.objs[j]? = w.objs[j]?) ∧ ∃ h', w'.objs[i]? = some h' ∧ h'.cls = h.cls ∧
            (w.lists.length ≤ h'.ref ∨ (h'.ref = h.ref ∧ h'.obj.modeCustom = h.obj.modeCustom ∧ h'.obj.doShuffle = h.obj.doShuffle)) := fun hs => by
          have hs := (Option.some.inj hs).symm
          subst hs
          refine ⟨fun j hj => ?_, _, getElem?_set_same (by show i < (w.objs.set i _).length; rw [List.length_set]; exact hil), rfl, .inl ?_⟩
          · show ((w.objs.set i _).set i _)[j]? = _
            rw [List.getElem?_set_ne (fun e => hj e.symm)]; exact oth hj
          · show _ ≤ (w.lists.set _ _).length
            rw [List.length_set]
        simp only [Perc.reset, hb] at hc
        cases hcl : h.cls with
        | l0 => rw [hcl] at hs hc; rw [← hcl]; exact put (by rw [← Except.ok.inj hc]; exact k1) (by rw [← Except.ok.inj hc]; exact k2) hs
        | sp => rw [hcl] at hs hc; rw [← hcl]; exact put (by rw [← Except.ok.inj hc]; exact k1) (by rw [← Except.ok.inj hc]; exact k2) hs
        | l1 => rw [hcl] at hs; rw [← hcl]; exact otherCase hs
        | l2 => rw [hcl] at hs; rw [← hcl]; exact otherCase hs

/-- C74: a list that only objects of the plain classes work with, without shuffling, and on which no `swap_ids` acts, keeps its value in any
further history, also if it is passed on to more such objects. -/
theorem C74_given_order (hw : WReach env w) {l : List Int} (hr : w.lists[r]? = some l)
    (hF : ∀ (i : Nat) (h : Handle α), w.objs[i]? = some h → h.ref = r → h.Fixed) (hg : Gently env r w w') :
    w'.lists[r]? = some l ∧ WReach env w' ∧ ∀ (i : Nat) (h : Handle α), w'.objs[i]? = some h → h.ref = r → h.Fixed := by
  induction hg with
  | refl => exact ⟨hr, hw, hF⟩
  | @step w1 w2 op _ safe gentle hs ih =>
    obtain ⟨g1, g2, g3⟩ := ih
    have hrl : r < w1.lists.length := (List.getElem?_eq_some_iff.1 g1).1
    have hnc : ¬ Changes w1 r op := by
      cases op with
      | new v L draws => exact id
      | list m => exact id
      | setIds i s b draws =>
        rintro ⟨e, rfl⟩
        exact absurd (gentle e).1 (by decide)
      | call i op =>
        rintro ⟨h, hi, e, hc⟩
        have hfx := g3 i h hi e
        cases op with
        | swapIds a b => exact gentle h hi e
        | reset draws => rw [hfx.2.2] at hc; cases hc
        | shuffle draws => rw [hfx.2.2] at hc; cases hc
        | place d => rw [hfx.1] at hc; cases hc
        | runOnce f ds => rw [hfx.1] at hc; cases hc
        | testRunOnce f ds => rw [hfx.1] at hc; cases hc
        | detect => exact hc
        | setIds _ _ _ => exact hc
        | setIndices _ _ _ => exact hc
    obtain ⟨l', k1, _, _, _, k5⟩ := C74_lists g2 hs g1
    rw [k5 hnc] at k1
    refine ⟨k1, .step op g2 safe hs, ?_⟩
    cases op with
    | new v L draws =>
      simp only [wstep] at hs
      split at hs
      · next S _ =>
        have hs := (Option.some.inj hs).symm
        subst hs
        intro j g hg e
        replace hg : (w1.objs ++ [⟨v, S, w1.lists.length⟩])[j]? = some g := hg
        rcases Nat.lt_trichotomy j w1.objs.length with hj | hj | hj
        · rw [List.getElem?_append_left hj] at hg; exact g3 j g hg e
        · subst hj
          rw [List.getElem?_concat_length] at hg
          cases hg
          have e : w1.lists.length = r := e
          omega
        · rw [List.getElem?_eq_none (by simp; omega)] at hg; cases hg
      · have hs := (Option.some.inj hs).symm; subst hs; exact g3
    | list m => have hs := (Option.some.inj hs).symm; subst hs; exact g3
    | call i op =>
      simp only [wstep] at hs
      split at hs
      · cases hs
      · next h hi =>
        obtain ⟨c1, h', c2, c3, c4⟩ := World.call_handle (g2.inv.reach hi) hi hs
        intro j g hg e
        by_cases hj : j = i
        · subst hj
          rw [c2] at hg
          cases hg
          rcases c4 with c4 | ⟨c4, c5, c6⟩
          · omega
          · obtain ⟨f1, f2, f3⟩ := g3 j h hi (c4.symm.trans e)
            exact ⟨c3.symm ▸ f1, c5.trans f2, c6.trans f3⟩
        · rw [c1 j hj] at hg; exact g3 j g hg e
    | setIds i s b draws =>
      simp only [wstep] at hs
      split at hs
      · next h m hi hsm =>
        have hs := (Option.some.inj hs).symm
        subst hs
        rcases World.setIds_lists (w := w1) (i := i) (h := h) (s := s) (b := b) (draws := draws) with e0 | ⟨S, _, _, _, m1, m2, _, e0⟩
        · rw [e0]; exact g3
        · rw [e0]
          intro j g hg e
          by_cases hj : j = i
          · subst hj
            replace hg : (w1.objs.set j _)[j]? = some g := hg
            rw [getElem?_set_same (lt_of_get hi)] at hg
            cases hg
            have e : s = r := e
            obtain ⟨f1, f2⟩ := gentle e
            exact ⟨f2 h hi, m1, m2.trans f1⟩
          · replace hg : (w1.objs.set i _)[j]? = some g := hg
            rw [List.getElem?_set_ne (fun e => hj e.symm)] at hg; exact g3 j g hg e
      · cases hs

/-- C74: a program is a sequence of actions that all succeed, one after the other; if one of them raises or refers to something that does not exist,
the program does not get to its end. -/
theorem C74_sequence (env : Env α) (w : World α) (op : WOp) (ops ops' : List WOp) :
    wsteps env [] w = some w ∧ wsteps env [op] w = wstep env w op ∧ wsteps env (ops ++ ops') w = (wsteps env ops w).bind (wsteps env ops') := by
  refine ⟨rfl, ?_, ?_⟩
  · simp only [wsteps]
    cases wstep env w op <;> rfl
  · induction ops generalizing w with
    | nil => rfl
    | cons o ops ih =>
      simp only [List.cons_append, wsteps]
      cases wstep env w o with
      | none => rfl
      | some w' => exact ih w'

/-! ### Examples -/

/-- Whether the actions can be done and the result passes a test. -/
def checkWorld (ops : List WOp) (p : World Unit → Bool) : Bool :=
  match wsteps demoEnv ops ⟨[], []⟩ with
  | some w => p w
  | none => false

theorem checkWorld_some {ops : List WOp} {p : World Unit → Bool} (h : checkWorld ops p = true) : ∃ w, wsteps demoEnv ops ⟨[], []⟩ = some w ∧ p w = true := by
  unfold checkWorld at h
  cases hw : wsteps demoEnv ops ⟨[], []⟩ with
  | none => rw [hw] at h; cases h
  | some w => rw [hw] at h; exact ⟨w, rfl, h⟩

/-- Two objects of class `v` and `u` with a common list `[0, 1, 2, 3]`, which is list object 2; the second is told to shuffle it or not. -/
def shareOps (v u : Variant) (b : Bool) : List WOp :=
  [.new v 2 (fun _ => 0), .new u 2 (fun _ => 0), .list [0, 1, 2, 3], .setIds 0 2 false (fun _ => 0), .call 0 .place0, .setIds 1 2 b (fun _ => 0)]

/-- C74: the rule matters.  Two objects of class L0 have got the same list, which has no repetitions; the second was told to shuffle it when the
first had placed site 0.  The first object then places sites 2 and 3 and raises AssertionError at its fourth placement; site 1 is never
placed. -/
theorem C74_interference : ∃ w : World Unit, ∃ h : Handle Unit,
    wsteps demoEnv (shareOps .l0 .l0 true ++ [.call 0 .place0, .call 0 .place0]) ⟨[], []⟩ = some w ∧ w.objs[0]? = some h ∧ w.listAt 2 = [1, 2, 3, 0] ∧
    SqPerc.step demoEnv .l0 (w.load h) .place0 = .error .assertionError ∧ (w.load h).occupiedCount = 3 ∧ ¬ (w.load h).Occ 1 := by
  obtain ⟨w, hw, hp⟩ := checkWorld_some (ops := shareOps .l0 .l0 true ++ [.call 0 .place0, .call 0 .place0])
    (p := fun w => decide (w.listAt 2 = [1, 2, 3, 0]) &&
      match w.objs[0]? with
      | some h => (match SqPerc.step demoEnv .l0 (w.load h) .place0 with | .error .assertionError => true | _ => false) &&
          (w.load h).occupiedCount == 3 && (match (w.load h).lat.getSite 1 with | .ok st => !st.isOccupied | .error _ => false)
      | none => false) (by decide +kernel)
  rw [Bool.and_eq_true, decide_eq_true_eq] at hp
  obtain ⟨h1, h2⟩ := hp
  cases hh : w.objs[0]? with
  | none => rw [hh] at h2; cases h2
  | some h =>
    rw [hh] at h2
    simp only [Bool.and_eq_true, beq_iff_eq] at h2
    obtain ⟨⟨h3, h4⟩, h5⟩ := h2
    refine ⟨w, h, hw, hh, h1, ?_, h4, ?_⟩
    · split at h3
      · next e => exact e
      · cases h3
    · rintro ⟨st, e1, e2⟩
      rw [e1] at h5
      simp only [e2] at h5
      cases h5

/-- C74: L1 overwrites entries of the caller's list: after a run the list that was `[0, 1, 2, 3]` has lost an id. -/
theorem C74_overwritten : ∃ w : World Unit,
    wsteps demoEnv [.new .l1 2 (fun _ => 0), .list [0, 1, 2, 3], .setIds 0 1 false (fun _ => 0), .call 0 (.runOnce 40 fun _ => ⟨1, 0⟩)] ⟨[], []⟩ = some w ∧
    ¬ (w.listAt 1).Nodup := by
  obtain ⟨w, hw, hp⟩ := checkWorld_some
    (ops := [.new .l1 2 (fun _ => 0), .list [0, 1, 2, 3], .setIds 0 1 false (fun _ => 0), .call 0 (.runOnce 40 fun _ => ⟨1, 0⟩)])
    (p := fun w => decide (¬ (w.listAt 1).Nodup)) (by decide +kernel)
  exact ⟨w, hw, of_decide_eq_true hp⟩

/-- A test of all objects but `i`. -/
def othersB (w : World α) (i : Nat) (p : Handle α → Bool) : Bool :=
  (List.range w.objs.length).all fun j => j == i || match w.objs[j]? with | some g => p g | none => true

theorem othersB_iff {p : Handle α → Bool} (hb : othersB w i p = true) : ∀ (j : Nat) (g : Handle α), j ≠ i → w.objs[j]? = some g → p g = true := by
  intro j g hj hg
  have := List.all_eq_true.1 hb j (List.mem_range.2 (lt_of_get hg))
  rw [hg, Bool.or_eq_true, beq_iff_eq] at this
  exact this.resolve_left hj

/-- A decidable condition that implies `Safe`. -/
def safeB (w : World α) : WOp → Bool
  | .setIds i r b _ => othersB w i (fun g => g.ref != r) || (!b && (match w.objs[i]? with | some h => h.cls.plain | none => true) &&
      othersB w i (fun g => g.ref != r || (g.cls.plain && g.obj.modeCustom && !g.obj.doShuffle)))
  | .call i (.swapIds _ _) => match w.objs[i]? with | some h => othersB w i (fun g => g.ref != h.ref) | none => true
  | _ => true

theorem safeB_sound {op : WOp} (hb : safeB w op = true) : Safe w op := by
  cases op with
  | new v L draws => trivial
  | list l => trivial
  | setIds i r b draws =>
    simp only [safeB, Bool.or_eq_true, Bool.and_eq_true] at hb
    rcases hb with hb | ⟨⟨h1, h2⟩, h3⟩
    · exact .inl fun j g hj hg => by simpa using othersB_iff hb j g hj hg
    · refine .inr ⟨by simpa using h1, fun h hi => by rw [hi] at h2; exact h2, fun j g hj hg e => ?_⟩
      have := othersB_iff h3 j g hj hg
      simp only [Bool.or_eq_true, bne_iff_ne, Bool.and_eq_true, Bool.not_eq_true'] at this
      obtain ⟨⟨a, b⟩, c⟩ := this.resolve_left fun h => h e
      exact ⟨a, b, c⟩
  | call i op =>
    cases op with
    | swapIds a b =>
      intro h hi j g hj hg
      simp only [safeB, hi] at hb
      simpa using othersB_iff hb j g hj hg
    | _ => trivial

/-- Actions that respect the rule. -/
def safeSteps (env : Env α) : List WOp → World α → Option (World α)
  | [], w => some w
  | op :: ops, w =>
    if safeB w op then
      match wstep env w op with
      | some w' => safeSteps env ops w'
      | none => none
    else none

theorem WReach.safeSteps : ∀ {ops : List WOp} {w w' : World α}, WReach env w → SqPerc.safeSteps env ops w = some w' → WReach env w' := by
  intro ops
  induction ops with
  | nil => intro w w' hw e; rw [← Option.some.inj e]; exact hw
  | cons op ops ih =>
    intro w w' hw e
    simp only [SqPerc.safeSteps] at e
    split at e
    · next hb =>
      split at e
      · next w1 h1 => exact ih (.step op hw (safeB_sound hb) h1) e
      · cases e
    · cases e

/-- Four objects of the four classes and three lengths, in the middle of their work; the plain ones share a list (list object 4), without shuffling, and L1 has
got a list of its own (list object 5), with shuffling. -/
example : ∃ w : World Unit, WReach demoEnv w ∧ w.objs.map (fun h => (h.cls, h.obj.lat.length, h.ref)) = [(.l0, 3, 4), (.sp, 2, 4), (.l1, 2, 5), (.l2, 4, 3)] ∧
    w.listAt 4 = [3, 0, 2] ∧ w.listAt 5 = [1, 0] ∧ w.objs.map (fun h => (w.load h).occupiedCount) = [2, 1, 1, 1] := by
  have : (match SqPerc.safeSteps demoEnv [.new .l0 3 (fun _ => 0), .new .sp 2 (fun _ => 0), .new .l1 2 (fun _ => 0), .new .l2 4 (fun _ => 0), .list [3, 0, 2], .list [0, 1],
      .setIds 0 4 false (fun _ => 0), .setIds 1 4 false (fun _ => 0), .setIds 2 5 true (fun _ => 0), .call 0 .place0, .call 1 .place0, .call 2 .place0,
      .call 0 .place0, .call 3 .place0] ⟨[], []⟩ with
    | some w => decide (w.objs.map (fun h => (h.cls, h.obj.lat.length, h.ref)) = [(.l0, 3, 4), (.sp, 2, 4), (.l1, 2, 5), (.l2, 4, 3)] ∧
      w.listAt 4 = [3, 0, 2] ∧ w.listAt 5 = [1, 0] ∧ w.objs.map (fun h => (w.load h).occupiedCount) = [2, 1, 1, 1])
    | none => false) = true := by decide +kernel
  split at this
  · next w hw => exact ⟨w, WReach.nil.safeSteps hw, of_decide_eq_true this⟩
  · cases this

end SqPerc
