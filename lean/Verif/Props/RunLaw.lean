import Verif.Proof.Moves
import Verif.Proof.Symmetry
import Verif.Props.Law
import Mathlib.Algebra.BigOperators.Fin
/-
Property C91: the law of whole runs of L1 and L2.
-/
namespace SqPerc

variable {α β : Type} {L M n : Nat} {env : Env α} {env' : Env β} {v : Variant} {S T : Perc α} {S' T' : Perc β} {σ : Symmetry L}

/-- The random numbers of `n` calls of `place_one_site`: for each call a number below `M`, which is reduced to a position in the list of
candidates, and one of four directions. -/
abbrev Draws (M n : Nat) := Fin n → Fin M × Fin 4

/-- The random numbers as an endless sequence. -/
def Draws.seq (ds : Draws M n) (i : Nat) : Draw := if h : i < n then ⟨(ds ⟨i, h⟩).1.1, (ds ⟨i, h⟩).2.1⟩ else ⟨0, 0⟩

/-- For each of `n` calls of `place_one_site` the site placed by it, if any. -/
def placements (env : Env α) (v : Variant) (n : Nat) (ds : Nat → Draw) (S : Perc α) : List (Option Nat) :=
  match callLog env v n ds S with
  | .ok (_, log) => log.map Prod.snd
  | .error _ => []

/-! ### Corresponding states -/

/-- Two states that differ by a symmetry of the lattice as far as the selection is concerned. -/
structure Mirror (σ : Symmetry L) (v : Variant) (S : Perc α) (S' : Perc β) : Prop where
  occ : ∀ s < L * L, (S'.Occ (σ.site s) ↔ S.Occ s)
  pool : S'.pool'.Perm (S.pool'.map σ.site)
  cnt : ∀ s < L * L, S'.dropCnt v (σ.site s) = S.dropCnt v s

theorem Symmetry.site_inj (σ : Symmetry L) {s t : Nat} (hs : s < L * L) (ht : t < L * L) (h : σ.site s = σ.site t) : s = t := by
  rw [← σ.back_site s hs, h, σ.back_site t ht]

theorem aim_lt {occ : Nat → Prop} {x k : Nat} {dir : Dir} (hx : x < L * L) (h : aim L v occ x dir = some k) : k < L * L := by
  unfold aim at h
  split at h
  · rw [← Option.some.inj h]; exact hx
  · split at h
    · rw [← Option.some.inj h]; exact nbr_lt hx _
    · split at h
      · rw [← Option.some.inj h]; exact (siteBeyond_mk (V := LV.init) hx (nbr_lt hx dir)).2
      · cases h

/-- The symmetry takes the site beyond to the site beyond (needed for L2 only). -/
def KeepsBeyond (σ : Symmetry L) (v : Variant) : Prop :=
  v = .l2 → ∀ x < L * L, ∀ dir, zOf L (σ.site x) (nbr L (σ.site x) (σ.dir dir)) = σ.site (zOf L x (nbr L x dir))

theorem Mirror.aim (m : Mirror σ v S S') (hz : KeepsBeyond σ v) {x : Nat} (hx : x < L * L) (dir : Dir) :
    aim L v S'.Occ (σ.site x) (σ.dir dir) = (aim L v S.Occ x dir).map σ.site := by
  have hy := nbr_lt hx dir
  have hzl := (siteBeyond_mk (V := LV.init) hx hy).2
  unfold SqPerc.aim
  rw [m.occ x hx]
  split
  · rfl
  · rw [σ.nbr_site x hx, m.occ _ hy]
    split
    · rfl
    · have : (v = .l2 ∧ ¬ S'.Occ (zOf L (σ.site x) (σ.site (nbr L x dir)))) ↔ (v = .l2 ∧ ¬ S.Occ (zOf L x (nbr L x dir))) := by
        constructor
        · rintro ⟨h, h'⟩
          rw [← σ.nbr_site x hx, hz h x hx, m.occ _ hzl] at h'; exact ⟨h, h'⟩
        · rintro ⟨h, h'⟩
          rw [← σ.nbr_site x hx, hz h x hx, m.occ _ hzl]; exact ⟨h, h'⟩
      by_cases h : v = .l2 ∧ ¬ S.Occ (zOf L x (nbr L x dir))
      · rw [if_pos h, if_pos (this.2 h), ← σ.nbr_site x hx, hz h.1 x hx]; rfl
      · rw [if_neg h, if_neg (fun h' => h (this.1 h'))]; rfl

theorem Mirror.move (m : Mirror σ v S S') {x : Nat} {t : Option Nat} (hx : x < L * L) (ht : ∀ k, t = some k → k < L * L)
    (a : Moved L v S T x t) (a' : Moved L v S' T' (σ.site x) (t.map σ.site)) : Mirror σ v T T' := by
  cases t with
  | none =>
    obtain ⟨b1, b2⟩ := a.miss rfl
    obtain ⟨b1', b2'⟩ := a'.miss rfl
    rw [m.cnt x hx] at b1' b2'
    refine ⟨fun s hs => ?_, ?_, fun s hs => ?_⟩
    · rw [a.occ, a'.occ, m.occ s hs]; simp
    · by_cases h0 : dec (S.dropCnt v x) = 0
      · rw [if_pos h0] at b2 b2'
        have := (b2'.symm.trans m.pool).trans (b2.map σ.site)
        rw [List.map_cons] at this
        exact this.cons_inv
      · rw [if_neg h0] at b2 b2'
        rw [b2, b2']; exact m.pool
    · rw [b1 s hs, b1' _ (σ.site_lt s hs), m.cnt s hs]
      by_cases h : s = x
      · rw [if_pos h, if_pos (by rw [h])]
      · rw [if_neg h, if_neg (fun h' => h (σ.site_inj hs hx h'))]
  | some k =>
    obtain ⟨b1, b2⟩ := a.hit (by simp)
    obtain ⟨b1', b2'⟩ := a'.hit (by simp)
    refine ⟨fun s hs => ?_, by rw [b1, b1']; exact m.pool, fun s hs => by rw [b2 s hs, b2' _ (σ.site_lt s hs), m.cnt s hs]⟩
    rw [a.occ, a'.occ, m.occ s hs]
    have : Option.map σ.site (some k) = some (σ.site s) ↔ some k = some s := by
      rw [Option.map_some, Option.some.injEq, Option.some.injEq]
      exact ⟨fun h => σ.site_inj (ht k rfl) hs h, fun h => by rw [h]⟩
    rw [this]

/-! ### Renaming the random numbers -/

theorem list_equiv {l l' : List Nat} {g : Nat → Nat} (hp : l'.Perm (l.map g)) (hnd : l'.Nodup) :
    ∃ e : Fin l.length ≃ Fin l.length, ∀ i, l'[(e i).1]? = some (g l[i.1]) := by
  have hlen : l'.length = l.length := by rw [hp.length_eq, List.length_map]
  have hex : ∀ i : Fin l.length, ∃ j : Fin l.length, l'[j.1]? = some (g l[i.1]) := by
    intro i
    have hm : g l[i.1] ∈ l' := hp.mem_iff.2 (List.mem_map_of_mem (List.getElem_mem _))
    obtain ⟨j, hj, e⟩ := List.getElem_of_mem hm
    exact ⟨⟨j, by omega⟩, by rw [List.getElem?_eq_getElem hj, e]⟩
  choose e he using hex
  have hinj : Function.Injective e := by
    intro i j hij
    have h1 := he i
    rw [hij, he j] at h1
    have h2 := hp.nodup_iff.1 hnd
    have hi : i.1 < (l.map g).length := by rw [List.length_map]; exact i.2
    have hj : j.1 < (l.map g).length := by rw [List.length_map]; exact j.2
    apply Fin.ext
    refine (List.Nodup.getElem_inj_iff h2 (hi := hi) (hj := hj)).1 ?_
    rw [List.getElem_map, List.getElem_map]
    exact (Option.some.inj h1).symm
  exact ⟨Equiv.ofBijective e (Finite.injective_iff_bijective.1 hinj), he⟩

theorem mod_equiv {w : Nat} (hw : 0 < w) (h : w ∣ M) (e : Fin w ≃ Fin w) :
    ∃ φ : Fin M ≃ Fin M, ∀ a, (φ a).1 % w = (e ⟨a.1 % w, Nat.mod_lt _ hw⟩).1 := by
  obtain ⟨c, rfl⟩ := h
  rw [Nat.mul_comm]
  refine ⟨(finProdFinEquiv.symm.trans (Equiv.prodCongr (Equiv.refl (Fin c)) e)).trans finProdFinEquiv, fun a => ?_⟩
  show ((e (finProdFinEquiv.symm a).2).1 + w * _) % w = _
  rw [Nat.add_mul_mod_self_left, Nat.mod_eq_of_lt (e _).2]
  rfl

theorem dir_equiv (σ : Symmetry L) : ∃ e : Fin 4 ≃ Fin 4, ∀ b, dirOf (e b).1 = σ.dir (dirOf b.1) := by
  have hex : ∀ b : Fin 4, ∃ c : Fin 4, dirOf c.1 = σ.dir (dirOf b.1) := fun b => dirOf_surj _
  choose e he using hex
  have hinj : Function.Injective e := by
    intro a b h
    have h1 := he a
    rw [h, he b] at h1
    exact Fin.ext (dirOf_inj a.2 b.2 (σ.dir_inj h1).symm)
  exact ⟨Equiv.ofBijective e (Finite.injective_iff_bijective.1 hinj), he⟩

/-! ### One call -/

/-- The state after a call, and the site placed by it. -/
def nextState (env : Env α) (v : Variant) (S : Perc α) (d : Draw) : Perc α :=
  match S.placeOneSite env v d with
  | .ok (S', _) => S'
  | .error _ => S

def nextSite (env : Env α) (v : Variant) (S : Perc α) (d : Draw) : Option Nat :=
  if (nextState env v S d).selectionFlag = some .success then (nextState env v S d).selected else none

theorem nextState_eq {d : Draw} {S1 : Perc α} {b : Bool} (h : S.placeOneSite env v d = .ok (S1, b)) : nextState env v S d = S1 := by
  unfold nextState; rw [h]

theorem Live.next (H : Live env v L S) (d : Draw) : Live env v L (nextState env v S d) := by
  obtain ⟨S1, b, h, H1, _⟩ := H.place d
  rw [nextState_eq h]; exact H1

theorem Live.placements_succ (H : Live env v L S) (n : Nat) (ds : Nat → Draw) :
    placements env v (n + 1) ds S = nextSite env v S (ds 0) :: placements env v n (fun i => ds (i + 1)) (nextState env v S (ds 0)) := by
  obtain ⟨S1, b, h, H1, _⟩ := H.place (ds 0)
  obtain ⟨S2, log, h2, _⟩ := H1.callLog n (fun i => ds (i + 1))
  have e : SqPerc.callLog env v (n + 1) ds S = .ok (S2, (b, if S1.selectionFlag = some .success then S1.selected else none) :: log) := by
    simp only [SqPerc.callLog]
    rw [h]
    show (SqPerc.callLog env v n (fun i => ds (i + 1)) S1 >>= _) = _
    rw [h2]; rfl
  unfold placements nextSite
  rw [nextState_eq h, e, h2]; rfl

theorem Live.nodup (H : Live env v L S) (hv : v = .l1 ∨ v = .l2) : S.pool'.Nodup := by
  have hs := H.sel
  rcases hv with rfl | rfl
  · exact Window.nd hs
  · exact Window.nd hs.1

theorem drawn_pool (S : Perc α) (d : Draw) : S.drawn d = S.pool'[d.a % S.pool'.length]? := by
  unfold Perc.drawn Perc.pool'; rw [List.length_drop]

theorem Mirror.call (H : Live env v L S) (H' : Live env' v L S') (m : Mirror σ v S S') (hv : v = .l1 ∨ v = .l2) (hz : KeepsBeyond σ v)
    {d d' : Draw} {x : Nat} (hx : S.drawn d = some x) (hx' : S'.drawn d' = some (σ.site x)) (hd : dirOf d'.b = σ.dir (dirOf d.b)) :
    Mirror σ v (nextState env v S d) (nextState env' v S' d') ∧ nextSite env' v S' d' = (nextSite env v S d).map σ.site := by
  obtain ⟨S1, b, h, _⟩ := H.place d
  obtain ⟨S1', b', h', _⟩ := H'.place d'
  have hxl : x < L * L := by
    rw [drawn_eq] at hx; exact H.lt x (List.mem_of_getElem? hx)
  have a := H.moved hv h hx
  have a' := H'.moved hv h' hx'
  rw [hd, m.aim hz hxl] at a'
  unfold nextSite
  rw [nextState_eq h, nextState_eq h', a.placed, a'.placed]
  exact ⟨m.move hxl (fun k hk => aim_lt hxl hk) a a', rfl⟩

theorem Mirror.call_nil (H : Live env v L S) (H' : Live env' v L S') (m : Mirror σ v S S') (hv : v = .l1 ∨ v = .l2) (d : Draw) (h0 : S.pool' = []) :
    Mirror σ v (nextState env v S d) (nextState env' v S' d) ∧ nextSite env' v S' d = (nextSite env v S d).map σ.site := by
  obtain ⟨S1, b, h, _⟩ := H.place d
  obtain ⟨S1', b', h', _⟩ := H'.place d
  have h0' : S'.pool' = [] := by
    have := m.pool
    rw [h0] at this
    exact List.perm_nil.1 this
  obtain ⟨a1, a2, a3, a4⟩ := H.idle hv h h0
  obtain ⟨b1, b2, b3, b4⟩ := H'.idle hv h' h0'
  unfold nextSite
  rw [nextState_eq h, nextState_eq h', a1, b1]
  refine ⟨⟨fun s hs => by rw [a2, b2, m.occ s hs], by rw [a3, b3]; exact List.Perm.refl _, fun s hs => ?_⟩, by rw [if_neg (by simp)]; rfl⟩
  rw [a4 s hs, b4 _ (σ.site_lt s hs), m.cnt s hs]

/-- The random numbers of the two states can be renamed so that the calls correspond. -/
theorem Mirror.rename (H : Live env v L S) (H' : Live env' v L S') (m : Mirror σ v S S') (hv : v = .l1 ∨ v = .l2) (hz : KeepsBeyond σ v)
    (hM : ∀ w, 0 < w → w ≤ L * L → w ∣ M) : ∃ φ : Fin M × Fin 4 ≃ Fin M × Fin 4, ∀ p,
      Mirror σ v (nextState env v S ⟨p.1.1, p.2.1⟩) (nextState env' v S' ⟨(φ p).1.1, (φ p).2.1⟩) ∧
      nextSite env' v S' ⟨(φ p).1.1, (φ p).2.1⟩ = (nextSite env v S ⟨p.1.1, p.2.1⟩).map σ.site := by
  by_cases h0 : S.pool' = []
  · exact ⟨Equiv.refl _, fun p => m.call_nil H H' hv _ h0⟩
  · have hw : 0 < S.pool'.length := List.length_pos_iff.2 h0
    have hwl : S.pool'.length ≤ L * L := by
      unfold Perc.pool'; rw [List.length_drop, H.len]; omega
    obtain ⟨e, he⟩ := list_equiv m.pool (H'.nodup hv)
    obtain ⟨φ, hφ⟩ := mod_equiv hw (hM _ hw hwl) e
    obtain ⟨ψ, hψ⟩ := dir_equiv σ
    have hlen : S'.pool'.length = S.pool'.length := by rw [m.pool.length_eq, List.length_map]
    refine ⟨Equiv.prodCongr φ ψ, fun p => ?_⟩
    refine m.call H H' hv hz (x := S.pool'[p.1.1 % S.pool'.length]'(Nat.mod_lt _ hw)) ?_ ?_ (hψ p.2)
    · rw [drawn_pool]; exact List.getElem?_eq_getElem (Nat.mod_lt _ hw)
    · rw [drawn_pool, hlen]
      show S'.pool'[(φ p.1).1 % S.pool'.length]? = _
      rw [hφ, he]

/-! ### Whole runs -/

theorem Draws.seq_cons (p : Fin M × Fin 4) (ds : Draws M n) :
    (Draws.seq (n := n + 1) (Fin.cons p ds)) 0 = ⟨p.1.1, p.2.1⟩ ∧ (fun i => (Draws.seq (n := n + 1) (Fin.cons p ds)) (i + 1)) = ds.seq := by
  constructor
  · unfold Draws.seq; rw [dif_pos (Nat.succ_pos n)]; rfl
  · funext i
    unfold Draws.seq
    by_cases h : i < n
    · rw [dif_pos h, dif_pos (Nat.succ_lt_succ h)]; rfl
    · rw [dif_neg h, dif_neg (fun h' => h (Nat.lt_of_succ_lt_succ h'))]

theorem Live.sum_succ (H : Live env v L S) {K : Type} [AddCommMonoid K] (f : List (Option Nat) → K) :
    ∑ ds : Draws M (n + 1), f (placements env v (n + 1) ds.seq S) =
      ∑ p : Fin M × Fin 4, ∑ ds : Draws M n,
        f (nextSite env v S ⟨p.1.1, p.2.1⟩ :: placements env v n ds.seq (nextState env v S ⟨p.1.1, p.2.1⟩)) := by
  rw [← Fintype.sum_prod_type']
  refine (Fintype.sum_equiv (Fin.consEquiv fun _ => Fin M × Fin 4) _ _ fun q => ?_).symm
  show _ = f (placements env v (n + 1) (Draws.seq (n := n + 1) (Fin.cons q.1 q.2)) S)
  rw [H.placements_succ, (Draws.seq_cons q.1 q.2).1, (Draws.seq_cons q.1 q.2).2]

theorem Mirror.sum {K : Type} [AddCommMonoid K] (hv : v = .l1 ∨ v = .l2) (hz : KeepsBeyond σ v) (hM : ∀ w, 0 < w → w ≤ L * L → w ∣ M) (n : Nat) :
    ∀ {S : Perc α} {S' : Perc β}, Live env v L S → Live env' v L S' → Mirror σ v S S' → ∀ f : List (Option Nat) → K,
      ∑ ds : Draws M n, f (placements env' v n ds.seq S') = ∑ ds : Draws M n, f ((placements env v n ds.seq S).map (Option.map σ.site)) := by
  induction n with
  | zero => intro S S' _ _ _ f; rfl
  | succ n ih =>
    intro S S' H H' m f
    obtain ⟨φ, hφ⟩ := m.rename H H' hv hz hM
    rw [H'.sum_succ f, H.sum_succ (fun l => f (l.map (Option.map σ.site)))]
    refine (Fintype.sum_equiv φ _ _ fun p => ?_).symm
    obtain ⟨h1, h2⟩ := hφ p
    rw [h2, ih (H.next _) (H'.next _) h1 (fun l => f ((nextSite env v S ⟨p.1.1, p.2.1⟩).map σ.site :: l))]
    rfl

theorem Fresh.init (h : Fresh env v L S) : ∃ sel, Sim env L S (Abs.init env L sel) := by
  cases h with
  | new h => exact ⟨_, (new_sim h).2.2⟩
  | reset h hr =>
    obtain ⟨A, M, _⟩ := h.live.sim
    exact ⟨_, reset_sim M hr⟩

theorem Fresh.dropCnt (h : Fresh env v L S) {s : Nat} (hs : s < L * L) : S.dropCnt v s = 4 := by
  obtain ⟨sel, M⟩ := h.init
  rw [dropCnt_mk M.lat hs]
  cases v <;> rfl

theorem Fresh.pool_perm (h : Fresh env v L S) (hv : v = .l1 ∨ v = .l2) : S.pool'.Perm (List.range (L * L)) := by
  obtain ⟨H, _, h0, _⟩ := h.live
  have hp : S.pool' = S.siteIds := by unfold Perc.pool'; rw [h0]; rfl
  have hnd := H.nodup hv
  rw [hp] at hnd ⊢
  exact perm_range hnd H.len H.lt

theorem Symmetry.map_range (σ : Symmetry L) : ((List.range (L * L)).map σ.site).Perm (List.range (L * L)) := by
  refine perm_range (List.Nodup.map_on (fun x hx y hy h => σ.site_inj (List.mem_range.1 hx) (List.mem_range.1 hy) h) List.nodup_range) (by simp) ?_
  intro x hx
  obtain ⟨y, hy, rfl⟩ := List.mem_map.1 hx
  exact σ.site_lt y (List.mem_range.1 hy)

theorem Fresh.mirror (h : Fresh env v L S) (h' : Fresh env' v L S') (hv : v = .l1 ∨ v = .l2) (σ : Symmetry L) : Mirror σ v S S' := by
  refine ⟨fun s _ => ⟨fun x => absurd x (h'.live.2.2.2 _), fun x => absurd x (h.live.2.2.2 _)⟩, ?_, fun s hs => ?_⟩
  · exact (h'.pool_perm hv).trans (σ.map_range.symm.trans ((h.pool_perm hv).map σ.site).symm)
  · rw [h.dropCnt hs, h'.dropCnt (σ.site_lt s hs)]

theorem Fresh.placements_spec (h : Fresh env v L S) (n : Nat) (ds : Nat → Draw) : ∃ log S1, SqPerc.callLog env v n ds S = .ok (S1, log) ∧
    placements env v n ds S = log.map Prod.snd ∧ (placements env v n ds S).filterMap id = placedBy log ∧ (placedBy log).Nodup ∧
    (∀ s ∈ placedBy log, s < L * L) ∧ (initBudget L v ≤ n → (placedBy log).Perm (List.range (L * L))) := by
  obtain ⟨S1, log, e, _, _, h3, h4, h5⟩ := h.callLog n ds
  have hp : placements env v n ds S = log.map Prod.snd := by unfold placements; rw [e]
  refine ⟨log, S1, e, hp, ?_, h3, h4, h5⟩
  rw [hp, List.filterMap_map]; rfl

/-- The identity. -/
def Symmetry.one (L : Nat) : Symmetry L where
  site s := s
  back s := s
  dir d := d
  dirBack d := d
  site_lt _ h := h
  back_lt _ h := h
  back_site _ _ := rfl
  site_back _ _ := rfl
  dirBack_dir _ := rfl
  dir_dirBack _ := rfl
  dir_opp _ := rfl
  nbr_site _ _ _ := rfl

/-! ### C91 -/

/-- C91: averages over whole runs of L1.  `S` and `S'` are new or reset objects, possibly with different site orders, set orders and
arithmetic.  All outcomes of the random numbers of `n` calls are equally likely.  The average of any function of the placed sites is the
same for `S'` as for `S` with every site replaced by its image under a symmetry of the periodic lattice. -/
theorem C91_average {K : Type} [AddCommMonoid K] (h : Fresh env .l1 L S) (h' : Fresh env' .l1 L S') (σ : Symmetry L)
    (hM : ∀ w, 0 < w → w ≤ L * L → w ∣ M) (n : Nat) (f : List (Option Nat) → K) :
    ∑ ds : Draws M n, f (placements env' .l1 n ds.seq S') = ∑ ds : Draws M n, f ((placements env .l1 n ds.seq S).map (Option.map σ.site)) :=
  Mirror.sum (Or.inl rfl) (fun h => by cases h) hM n h.live.1 h'.live.1 (h.mirror h' (Or.inl rfl) σ) f

theorem card_sum {X : Type} [Fintype X] (P : X → Prop) [DecidablePred P] : Nat.card {x // P x} = ∑ x : X, if P x then 1 else 0 := by
  rw [Nat.card_eq_fintype_card, Fintype.card_subtype, Finset.card_filter]

theorem Symmetry.map_option_inj (σ : Symmetry L) {o o' : List (Option Nat)} (h : ∀ s, some s ∈ o → s < L * L) (h' : ∀ s, some s ∈ o' → s < L * L) :
    o.map (Option.map σ.site) = o'.map (Option.map σ.site) ↔ o = o' := by
  constructor
  · intro e
    have hb : ∀ o : List (Option Nat), (∀ s, some s ∈ o → s < L * L) → (o.map (Option.map σ.site)).map (Option.map σ.back) = o := by
      intro o h
      rw [List.map_map]
      refine (List.map_congr_left fun a ha => ?_).trans (List.map_id o)
      cases a with
      | none => rfl
      | some s => exact congrArg some (σ.back_site s (h s ha))
    rw [← hb o h, e, hb o' h']
  · rintro rfl; rfl

theorem Fresh.some_lt (h : Fresh env v L S) {n : Nat} {ds : Nat → Draw} {s : Nat} (hs : some s ∈ placements env v n ds S) : s < L * L := by
  obtain ⟨log, S1, _, _, hq, _, hlt, _⟩ := h.placements_spec n ds
  apply hlt
  rw [← hq]
  exact List.mem_filterMap.2 ⟨some s, hs, rfl⟩

/-- C91: a run of L1 with given placements is as likely as its image under any symmetry of the periodic lattice, also on a different
object. -/
theorem C91_law (h : Fresh env .l1 L S) (h' : Fresh env' .l1 L S') (σ : Symmetry L) (hM : ∀ w, 0 < w → w ≤ L * L → w ∣ M)
    (n : Nat) (o : List (Option Nat)) (ho : ∀ s, some s ∈ o → s < L * L) :
    Nat.card {ds : Draws M n // placements env' .l1 n ds.seq S' = o.map (Option.map σ.site)} =
      Nat.card {ds : Draws M n // placements env .l1 n ds.seq S = o} := by
  classical
  rw [card_sum, card_sum, C91_average h h' σ hM n (fun l => if l = o.map (Option.map σ.site) then 1 else 0)]
  refine Finset.sum_congr rfl fun ds _ => ?_
  simp only [σ.map_option_inj (fun s hs => h.some_lt hs) ho]

/-- C91: in particular the law does not depend on the object: neither the order of the site list left by earlier runs nor the order in which
sets are iterated plays a role. -/
theorem C91_objects (h : Fresh env .l1 L S) (h' : Fresh env' .l1 L S') (hM : ∀ w, 0 < w → w ≤ L * L → w ∣ M) (n : Nat)
    (o : List (Option Nat)) : Nat.card {ds : Draws M n // placements env' .l1 n ds.seq S' = o} =
      Nat.card {ds : Draws M n // placements env .l1 n ds.seq S = o} := by
  classical
  have e : ∀ l : List (Option Nat), l.map (Option.map (Symmetry.one L).site) = l := fun l => by
    rw [show (Option.map (Symmetry.one L).site) = id from funext fun a => by cases a <;> rfl, List.map_id]
  rw [card_sum, card_sum, C91_average h h' (Symmetry.one L) hM n (fun l => if l = o then 1 else 0)]
  simp only [e]

/-- Shifts take any site to any other one. -/
theorem exists_shift {s t : Nat} (hs : s < L * L) (ht : t < L * L) : ∃ σ : Symmetry L, σ.site s = t := by
  obtain ⟨r, c, hr, hc, rfl⟩ := exists_rc hs
  obtain ⟨r', c', hr', hc', rfl⟩ := exists_rc ht
  refine ⟨Symmetry.shift L (r' + (L - r)) (c' + (L - c)), ?_⟩
  show shiftSite L _ _ _ = _
  rw [shiftSite_rc hc, show r + (r' + (L - r)) = r' + L by omega, show c + (c' + (L - c)) = c' + L by omega, Nat.add_mod_right, Nat.add_mod_right,
    Nat.mod_eq_of_lt hr', Nat.mod_eq_of_lt hc']

/-- The sites placed by `n` calls, in order. -/
def order (env : Env α) (v : Variant) (n : Nat) (ds : Nat → Draw) (S : Perc α) : List Nat := (placements env v n ds S).filterMap id

theorem filterMap_option (g : Nat → Nat) (o : List (Option Nat)) : (o.map (Option.map g)).filterMap id = (o.filterMap id).map g := by
  induction o with
  | nil => rfl
  | cons a o ih =>
    cases a with
    | none => exact ih
    | some x => exact congrArg (g x :: ·) ih

theorem Fresh.order_spec (h : Fresh env v L S) (n : Nat) (ds : Nat → Draw) : (order env v n ds S).Nodup ∧
    (∀ s ∈ order env v n ds S, s < L * L) ∧ (initBudget L v ≤ n → (order env v n ds S).Perm (List.range (L * L))) := by
  obtain ⟨log, S1, _, _, hq, h1, h2, h3⟩ := h.placements_spec n ds
  unfold order
  rw [hq]; exact ⟨h1, h2, h3⟩

/-- C91: every event about the order of the placed sites is as likely as its image. -/
theorem order_sum (h : Fresh env .l1 L S) (σ : Symmetry L) (hM : ∀ w, 0 < w → w ≤ L * L → w ∣ M) (n : Nat) (P : List Nat → Prop) :
    Nat.card {ds : Draws M n // P (order env .l1 n ds.seq S)} = Nat.card {ds : Draws M n // P ((order env .l1 n ds.seq S).map σ.site)} := by
  classical
  rw [card_sum, card_sum]
  have := C91_average h h σ hM n (fun l => if P (l.filterMap id) then 1 else 0)
  simp only [filterMap_option] at this
  exact this

theorem mem_map_site {σ : Symmetry L} {q : List Nat} (hq : ∀ s ∈ q, s < L * L) {s : Nat} (hs : s < L * L) : σ.site s ∈ q.map σ.site ↔ s ∈ q := by
  constructor
  · intro h
    obtain ⟨x, hx, e⟩ := List.mem_map.1 h
    rw [← σ.site_inj (hq x hx) hs e]; exact hx
  · exact List.mem_map_of_mem

theorem card_draws : Fintype.card (Draws M n) = (4 * M) ^ n := by
  rw [Fintype.card_fun, Fintype.card_prod, Fintype.card_fin, Fintype.card_fin, Fintype.card_fin, Nat.mul_comm]

/-- C91: no site is favoured: after any number of calls of L1 every site is occupied with the same probability, namely the expected
number of occupied sites divided by `L²`. -/
theorem C91_density (h : Fresh env .l1 L S) (hM : ∀ w, 0 < w → w ≤ L * L → w ∣ M) (n : Nat) {s : Nat} (hs : s < L * L) :
    L * L * Nat.card {ds : Draws M n // s ∈ order env .l1 n ds.seq S} = ∑ ds : Draws M n, (order env .l1 n ds.seq S).length := by
  classical
  have key : ∀ t : Fin (L * L), Nat.card {ds : Draws M n // s ∈ order env .l1 n ds.seq S} = Nat.card {ds : Draws M n // t.1 ∈ order env .l1 n ds.seq S} := by
    intro t
    obtain ⟨σ, hσ⟩ := exists_shift hs t.2
    rw [order_sum h σ hM n (fun q => t.1 ∈ q), ← hσ]
    simp only [mem_map_site (h.order_spec n _).2.1 hs]
  have : L * L * Nat.card {ds : Draws M n // s ∈ order env .l1 n ds.seq S} =
      ∑ t : Fin (L * L), Nat.card {ds : Draws M n // t.1 ∈ order env .l1 n ds.seq S} := by
    rw [← Finset.sum_congr rfl fun t _ => key t, Finset.sum_const, Finset.card_univ, Fintype.card_fin, smul_eq_mul]
  rw [this]
  simp only [card_sum]
  rw [Finset.sum_comm]
  refine Finset.sum_congr rfl fun ds _ => ?_
  obtain ⟨h1, h2, _⟩ := h.order_spec n ds.seq
  rw [← Finset.card_filter, ← List.toFinset_card_of_nodup h1]
  refine Finset.card_bij (fun t _ => t.1) ?_ ?_ ?_
  · intro t ht; exact List.mem_toFinset.2 (Finset.mem_filter.1 ht).2
  · intro t _ u _ e; exact Fin.ext e
  · intro x hx
    have hx := List.mem_toFinset.1 hx
    exact ⟨⟨x, h2 x hx⟩, Finset.mem_filter.2 ⟨Finset.mem_univ _, hx⟩, rfl⟩

/-- C91: in a complete run of L1 every site is the `k`-th one to be placed with the same probability `1 / L²`. -/
theorem C91_position (h : Fresh env .l1 L S) (hM : ∀ w, 0 < w → w ≤ L * L → w ∣ M) {n : Nat} (hn : 5 * (L * L) ≤ n) {k : Nat} (hk : k < L * L)
    {s : Nat} (hs : s < L * L) : L * L * Nat.card {ds : Draws M n // (order env .l1 n ds.seq S)[k]? = some s} = (4 * M) ^ n := by
  classical
  have key : ∀ t : Fin (L * L), Nat.card {ds : Draws M n // (order env .l1 n ds.seq S)[k]? = some s} =
      Nat.card {ds : Draws M n // (order env .l1 n ds.seq S)[k]? = some t.1} := by
    intro t
    obtain ⟨σ, hσ⟩ := exists_shift hs t.2
    rw [order_sum h σ hM n (fun q => q[k]? = some t.1), ← hσ]
    have : ∀ ds : Draws M n, ((order env .l1 n ds.seq S).map σ.site)[k]? = some (σ.site s) ↔ (order env .l1 n ds.seq S)[k]? = some s := by
      intro ds
      rw [List.getElem?_map]
      constructor
      · intro e
        obtain ⟨x, hx, e⟩ := Option.map_eq_some_iff.1 e
        rw [hx, σ.site_inj ((h.order_spec n _).2.1 x (List.mem_of_getElem? hx)) hs e]
      · intro e; rw [e]; rfl
    simp only [this]
  have : L * L * Nat.card {ds : Draws M n // (order env .l1 n ds.seq S)[k]? = some s} =
      ∑ t : Fin (L * L), Nat.card {ds : Draws M n // (order env .l1 n ds.seq S)[k]? = some t.1} := by
    rw [← Finset.sum_congr rfl fun t _ => key t, Finset.sum_const, Finset.card_univ, Fintype.card_fin, smul_eq_mul]
  rw [this]
  simp only [card_sum]
  rw [Finset.sum_comm, ← card_draws, ← Finset.card_univ, Finset.card_eq_sum_ones]
  refine Finset.sum_congr rfl fun ds _ => ?_
  obtain ⟨_, h2, h3⟩ := h.order_spec n ds.seq
  have hp := h3 (show (5 * (L * L) : Int) ≤ n by exact_mod_cast hn)
  have hkl : k < (order env .l1 n ds.seq S).length := by rw [hp.length_eq, List.length_range]; exact hk
  rw [← Finset.card_filter, Finset.card_eq_one]
  refine ⟨⟨(order env .l1 n ds.seq S)[k], h2 _ (List.getElem_mem hkl)⟩, ?_⟩
  ext t
  rw [Finset.mem_filter, Finset.mem_singleton, List.getElem?_eq_getElem hkl, Option.some.injEq]
  exact ⟨fun e => Fin.ext e.2.symm, fun e => ⟨Finset.mem_univ _, by rw [e]⟩⟩

/-! ### L2 -/

/-- The symmetry takes steps across the periodic boundary to steps across the periodic boundary. -/
def KeepsBoundary (σ : Symmetry L) : Prop := ∀ s < L * L, ∀ dir, (Crosses L (σ.site s) (σ.dir dir) ↔ Crosses L s dir)

theorem KeepsBoundary.beyond (h : KeepsBoundary σ) : KeepsBeyond σ v := by
  intro _ x hx dir
  by_cases hL : 2 ≤ L
  · by_cases hc : Crosses L x dir
    · rw [zOf_crossing hL hx dir hc, zOf_crossing hL (σ.site_lt x hx) _ ((h x hx dir).2 hc)]
    · rw [zOf_ahead hx dir hc, zOf_ahead (σ.site_lt x hx) _ (fun h' => hc ((h x hx dir).1 h')), σ.nbr_site x hx, σ.nbr_site _ (nbr_lt hx dir)]
  · have h1 := (siteBeyond_mk (V := LV.init) (σ.site_lt x hx) (nbr_lt (σ.site_lt x hx) (σ.dir dir))).2
    have h2 := σ.site_lt _ (siteBeyond_mk (V := LV.init) hx (nbr_lt hx dir)).2
    have : L * L ≤ 1 := by
      have : L ≤ 1 := by omega
      exact (Nat.mul_le_mul this this)
    omega

/-- C91: the law of L2 has the symmetries that keep the periodic boundary in place. -/
theorem C91_l2 {K : Type} [AddCommMonoid K] (h : Fresh env .l2 L S) (h' : Fresh env' .l2 L S') (σ : Symmetry L) (hσ : KeepsBoundary σ)
    (hM : ∀ w, 0 < w → w ≤ L * L → w ∣ M) (n : Nat) (f : List (Option Nat) → K) :
    ∑ ds : Draws M n, f (placements env' .l2 n ds.seq S') = ∑ ds : Draws M n, f ((placements env .l2 n ds.seq S).map (Option.map σ.site)) :=
  Mirror.sum (Or.inr rfl) hσ.beyond hM n h.live.1 h'.live.1 (h.mirror h' (Or.inr rfl) σ) f

/-- C91: exchange of rows and columns, and reversal of the rows, keep the boundary. -/
theorem C91_l2_symmetries (L : Nat) : KeepsBoundary (Symmetry.transpose L) ∧ KeepsBoundary (Symmetry.flip L) := by
  constructor
  · intro s hs dir
    obtain ⟨r, c, hr, hc, rfl⟩ := exists_rc hs
    show Crosses L (transposeSite L _) _ ↔ _
    rw [transposeSite_rc hc]
    cases dir <;> simp only [Symmetry.transpose, Dir.swap, Crosses, mul_add_div_L hc, mul_add_mod_L hc, mul_add_div_L hr, mul_add_mod_L hr]
  · intro s hs dir
    obtain ⟨r, c, hr, hc, rfl⟩ := exists_rc hs
    show Crosses L (flipSite L _) _ ↔ _
    rw [flipSite_rc hc]
    cases dir <;> simp only [Symmetry.flip, Dir.flip, Crosses, mul_add_div_L hc, mul_add_mod_L hc] <;> omega

/-- The number of outcomes of the random numbers with given placements, by enumeration. -/
def countRuns (env : Env α) (v : Variant) (M : Nat) : List (Option Nat) → Perc α → Nat
  | [], _ => 1
  | o :: os, S => ((List.range M).map fun a => ((List.range 4).map fun b =>
      match S.placeOneSite env v ⟨a, b⟩ with
      | .ok (S', _) => if (if S'.selectionFlag = some .success then S'.selected else none) = o then countRuns env v M os S' else 0
      | .error _ => 0).sum).sum

theorem sum_list_range (f : Nat → Nat) (n : Nat) : ((List.range n).map f).sum = ∑ i : Fin n, f i.1 := by
  rw [← Finset.sum_range]
  induction n with
  | zero => rfl
  | succ n ih => rw [List.range_succ, List.map_append, List.sum_append, ih, Finset.sum_range_succ]; simp

theorem Live.countRuns (os : List (Option Nat)) : ∀ {S : Perc α}, Live env v L S →
    Nat.card {ds : Draws M os.length // placements env v os.length ds.seq S = os} = SqPerc.countRuns env v M os S := by
  classical
  induction os with
  | nil =>
    intro S H
    rw [card_sum]
    simp [placements, SqPerc.callLog, SqPerc.countRuns]
  | cons o os ih =>
    intro S H
    rw [card_sum]
    refine (H.sum_succ (n := os.length) (fun l => if l = o :: os then 1 else 0)).trans ?_
    rw [Fintype.sum_prod_type]
    unfold SqPerc.countRuns
    rw [sum_list_range]
    refine Finset.sum_congr rfl fun a _ => ?_
    rw [sum_list_range]
    refine Finset.sum_congr rfl fun b _ => ?_
    obtain ⟨S1, c, hp, H1, _⟩ := H.place ⟨a.1, b.1⟩
    have hs : (if S1.selectionFlag = some .success then S1.selected else none) = nextSite env v S ⟨a.1, b.1⟩ := by
      unfold nextSite; rw [nextState_eq hp]
    rw [hp]
    dsimp only
    rw [hs, ← nextState_eq hp]
    by_cases h : nextSite env v S ⟨a.1, b.1⟩ = o
    · rw [if_pos h, ← ih (H.next _), card_sum]
      refine Finset.sum_congr rfl fun ds _ => ?_
      simp only [List.cons.injEq, h, true_and]
    · rw [if_neg h]
      refine Finset.sum_eq_zero fun ds _ => ?_
      rw [if_neg]
      intro e
      exact h (List.cons.inj e).1

/-- C91: the law of L2 is not invariant under translations of the torus.  On a new lattice of length 3 the first three calls choose among nine
candidates and four directions each.  They place the sites 0, 1, 2 of the first row in this order with 160 of the `36³` outcomes, and the
translated sites 2, 0, 1 with 120. -/
theorem C91_l2_boundary : ∃ S : Perc Unit, Fresh demoEnv .l2 3 S ∧
    Nat.card {ds : Draws 9 3 // placements demoEnv .l2 3 ds.seq S = [some 0, some 1, some 2]} = 160 ∧
    Nat.card {ds : Draws 9 3 // placements demoEnv .l2 3 ds.seq S = [0, 1, 2].map (fun s => some ((Symmetry.shift 3 0 2).site s))} = 120 := by
  have h0 : (match Perc.new demoEnv 3 (fun _ => 0) with
    | .ok S => decide (countRuns demoEnv .l2 9 [some 0, some 1, some 2] S = 160 ∧ countRuns demoEnv .l2 9 [some 2, some 0, some 1] S = 120)
    | .error _ => false) = true := by decide +kernel
  cases hn : Perc.new demoEnv 3 (fun _ => 0) with
  | error e => rw [hn] at h0; cases h0
  | ok S =>
    rw [hn] at h0
    obtain ⟨h1, h2⟩ := of_decide_eq_true h0
    have hF : Fresh demoEnv .l2 3 S := .new hn
    refine ⟨S, hF, ?_, ?_⟩
    · rw [← h1]; exact hF.live.1.countRuns [some 0, some 1, some 2]
    · rw [← h2]; exact hF.live.1.countRuns [some 2, some 0, some 1]

/-- Non-trivial case for L1: on a new lattice of length 3 the same two orders are equally likely (with nine candidates in each of the first
three calls, 120 of the `36³` outcomes each). -/
theorem C91_l1_sample : ∃ S : Perc Unit, Fresh demoEnv .l1 3 S ∧
    Nat.card {ds : Draws 9 3 // placements demoEnv .l1 3 ds.seq S = [some 0, some 1, some 2]} = 120 ∧
    Nat.card {ds : Draws 9 3 // placements demoEnv .l1 3 ds.seq S = [0, 1, 2].map (fun s => some ((Symmetry.shift 3 0 2).site s))} = 120 := by
  have h0 : (match Perc.new demoEnv 3 (fun _ => 0) with
    | .ok S => decide (countRuns demoEnv .l1 9 [some 0, some 1, some 2] S = 120 ∧ countRuns demoEnv .l1 9 [some 2, some 0, some 1] S = 120)
    | .error _ => false) = true := by decide +kernel
  cases hn : Perc.new demoEnv 3 (fun _ => 0) with
  | error e => rw [hn] at h0; cases h0
  | ok S =>
    rw [hn] at h0
    obtain ⟨h1, h2⟩ := of_decide_eq_true h0
    have hF : Fresh demoEnv .l1 3 S := .new hn
    refine ⟨S, hF, ?_, ?_⟩
    · rw [← h1]; exact hF.live.1.countRuns [some 0, some 1, some 2]
    · rw [← h2]; exact hF.live.1.countRuns [some 2, some 0, some 1]

/-- Numbers `M` as in the theorems exist for every `L`: the factorial of the number of sites. -/
theorem C91_modulus (L : Nat) : ∀ w, 0 < w → w ≤ L * L → w ∣ (L * L).factorial := fun _ h0 h => Nat.dvd_factorial h0 h

/-- Non-trivial case: on any new L1 object of length 2 every site is the third one to be placed with a quarter of the outcomes. -/
example : ∃ S : Perc Unit, Fresh demoEnv .l1 2 S ∧ ∀ s < 4, 4 * Nat.card {ds : Draws 24 20 // (order demoEnv .l1 20 ds.seq S)[2]? = some s} = 96 ^ 20 := by
  obtain ⟨S, _, h⟩ := fresh_exists demoEnv .l1 (L := 2) (by decide) (fun _ => 0)
  exact ⟨S, h, fun s hs => C91_position h (C91_modulus 2) (by decide) (by decide) hs⟩

end SqPerc
