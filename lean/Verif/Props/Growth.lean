import Verif.Spec.Growth
import Verif.Props.RunLaw
import Verif.Props.Seed
/-
Property C92: L1 and L2 follow the growth process of `Spec/Growth.lean`, in single calls and in `run_once`.
-/
namespace SqPerc

variable {α : Type} {L n : Nat} {env : Env α} {v : Variant} {S S' : Perc α} {g : Growth}

/-- L2 looks one site further than L1. -/
def Variant.deep (v : Variant) : Bool := match v with
  | .l2 => true
  | _ => false

/-- Candidate number and direction of a call. -/
def Draw.pick (d : Draw) : Nat × Dir := (d.a, dirOf d.b)

/-- The object is in the state `g` of the process. -/
structure Follows (L : Nat) (v : Variant) (S : Perc α) (g : Growth) : Prop where
  occ : ∀ s, S.Occ s ↔ s ∈ g.placed
  pool : S.pool' = g.cand
  cnt : ∀ s < L * L, S.dropCnt v s = g.left s

theorem crossesB_iff {x : Nat} (dir : Dir) : crossesB L x dir = true ↔ Crosses L x dir := by
  cases dir <;> simp [crossesB, Crosses]

theorem zOf_beyond {x : Nat} (hx : x < L * L) (dir : Dir) : zOf L x (nbr L x dir) = beyond L x dir := by
  unfold beyond
  by_cases hL : 2 ≤ L
  · by_cases hc : Crosses L x dir
    · rw [if_pos ((crossesB_iff dir).2 hc), zOf_crossing hL hx dir hc]
    · rw [if_neg (fun h => hc ((crossesB_iff dir).1 h)), zOf_ahead hx dir hc]
  · have h1 := (siteBeyond_mk (V := LV.init) hx (nbr_lt hx dir)).2
    have h2 : L * L ≤ 1 := Nat.mul_le_mul (by omega : L ≤ 1) (by omega : L ≤ 1)
    have h3 := nbr_lt (nbr_lt hx dir) dir
    split <;> omega

theorem Follows.aim (f : Follows L v S g) {x : Nat} (hx : x < L * L) (dir : Dir) : aim L v S.Occ x dir = g.target L v.deep x dir := by
  unfold SqPerc.aim Growth.target
  rw [f.occ, f.occ, f.occ, zOf_beyond hx]
  have : (v = .l2) ↔ v.deep = true := by cases v <;> simp [Variant.deep]
  simp only [this]

theorem dec_cast (m : Nat) : dec (m : Int) = ((m - 1 : Nat) : Int) := by
  unfold dec
  split <;> omega

theorem Follows.next (f : Follows L v S g) (H : Live env v L S) (hv : v = .l1 ∨ v = .l2) (d : Draw) :
    Follows L v (nextState env v S d) (g.step L v.deep d.pick.1 d.pick.2) ∧
    (g.step L v.deep d.pick.1 d.pick.2).placed = g.placed ++ (nextSite env v S d).toList := by
  obtain ⟨S1, b, h, _⟩ := H.place d
  by_cases h0 : S.pool' = []
  · obtain ⟨a1, a2, a3, a4⟩ := H.idle hv h h0
    have hg : g.step L v.deep d.pick.1 d.pick.2 = g := by
      unfold Growth.step; rw [← f.pool, h0]; rfl
    rw [hg]
    unfold nextSite
    rw [nextState_eq h, a1]
    exact ⟨⟨fun s => (a2 s).trans (f.occ s), by rw [a3, ← h0, f.pool], fun s hs => by rw [a4 s hs, f.cnt s hs]⟩, by simp⟩
  · have hw : 0 < S.pool'.length := List.length_pos_iff.2 h0
    have hx : S.pool'[d.a % S.pool'.length]? = some (S.pool'[d.a % S.pool'.length]'(Nat.mod_lt _ hw)) := List.getElem?_eq_getElem (Nat.mod_lt _ hw)
    generalize S.pool'[d.a % S.pool'.length]'(Nat.mod_lt _ hw) = x at hx
    have hd : S.drawn d = some x := by rw [drawn_pool]; exact hx
    have hxl : x < L * L := by
      rw [drawn_eq] at hd; exact H.lt x (List.mem_of_getElem? hd)
    have a := H.moved hv h hd
    rw [f.aim hxl] at a
    unfold nextSite
    rw [nextState_eq h, a.placed]
    have hx' : g.cand[d.a % g.cand.length]? = some x := by rw [← f.pool]; exact hx
    have e : g.step L v.deep d.pick.1 d.pick.2 = match g.target L v.deep x (dirOf d.b) with
      | some k => { g with placed := g.placed ++ [k] }
      | none => { g with
          left := Function.update g.left x (g.left x - 1)
          cand := if g.left x - 1 = 0 then (g.cand.set (d.a % g.cand.length) (g.cand.headD 0)).tail else g.cand } := by
      unfold Growth.step
      show (match g.cand[d.a % g.cand.length]? with | none => _ | some x => _) = _
      rw [hx']; rfl
    rw [e]
    cases ht : g.target L v.deep x (dirOf d.b) with
    | some k =>
      rw [ht] at a
      obtain ⟨b1, b2⟩ := a.hit (by simp)
      refine ⟨⟨fun s => ?_, b1.trans f.pool, fun s hs => by rw [b2 s hs, f.cnt s hs]⟩, rfl⟩
      rw [a.occ, f.occ, List.mem_append, List.mem_singleton, Option.some.injEq]
      exact or_congr_right eq_comm
    | none =>
      rw [ht] at a
      obtain ⟨b1, b2⟩ := a.miss rfl
      have hc : dec (S.dropCnt v x) = ((g.left x - 1 : Nat) : Int) := by rw [f.cnt x hxl, dec_cast]
      refine ⟨⟨fun s => ?_, ?_, fun s hs => ?_⟩, by simp⟩
      · rw [a.occ, f.occ]; simp
      · show _ = if g.left x - 1 = 0 then _ else _
        by_cases hz : g.left x - 1 = 0
        · rw [if_pos hz]
          obtain ⟨i, c1, c2⟩ := a.drop rfl (by rw [hc, hz]; rfl)
          have hi : i = d.a % g.cand.length := by
            have n1 := H.nodup hv
            rw [← f.pool]
            obtain ⟨l1, l2⟩ := List.getElem?_eq_some_iff.1 c1
            obtain ⟨l3, l4⟩ := List.getElem?_eq_some_iff.1 hx
            exact (List.Nodup.getElem_inj_iff n1).1 (l2.trans l4.symm)
          rw [c2, hi, f.pool]
        · rw [if_neg hz]
          rw [hc, if_neg (by exact_mod_cast hz)] at b2
          rw [b2, f.pool]
      · rw [b1 s hs]
        show _ = ((Function.update g.left x (g.left x - 1) s : Nat) : Int)
        by_cases hs' : s = x
        · rw [if_pos hs', hs', Function.update_self, hc]
        · rw [if_neg hs', Function.update_of_ne hs', f.cnt s hs]

/-- Any number of calls. -/
theorem Live.growth (hv : v = .l1 ∨ v = .l2) (n : Nat) : ∀ {S : Perc α} {g : Growth} (ds : Nat → Draw), Live env v L S → Follows L v S g →
    (Growth.run L v.deep (fun i => (ds i).pick) n g).placed = g.placed ++ order env v n ds S := by
  induction n with
  | zero => intro S g ds _ _; simp [Growth.run, order, placements, SqPerc.callLog]
  | succ n ih =>
    intro S g ds H f
    obtain ⟨f1, e⟩ := f.next H hv (ds 0)
    rw [Growth.run, ih (fun i => ds (i + 1)) (H.next _) f1, e, order, order, H.placements_succ]
    cases nextSite env v S (ds 0) with
    | none => simp
    | some k => simp

theorem Growth.run_nil (deep : Bool) (n : Nat) : ∀ {g : Growth} (ds : Nat → Nat × Dir), g.cand = [] → Growth.run L deep ds n g = g := by
  induction n with
  | zero => intro g ds _; rfl
  | succ n ih =>
    intro g ds h
    have : g.step L deep (ds 0).1 (ds 0).2 = g := by unfold Growth.step; rw [h]; rfl
    rw [Growth.run, this, ih _ h]

theorem Follows.keep (f : Follows L v S g) (K : KeepSel S S') (ho : ∀ s, S'.Occ s ↔ S.Occ s) : Follows L v S' g :=
  ⟨fun s => (ho s).trans (f.occ s), by unfold Perc.pool'; rw [K.siteIds, K.currentIdx]; exact f.pool, fun s hs => by rw [K.dropCnt, f.cnt s hs]⟩

theorem Live.pool_nil (H : Live env v L S) (hv : v = .l1 ∨ v = .l2) (h : S.budget L v = 0) : S.pool' = [] := by
  have key : ∀ m : Nat → Int, Window L S m → S.left L m = 0 → S.pool' = [] := by
    intro m W hl
    have hs : 0 ≤ (L * L : Int) - S.occupiedCount := by have := W.sum; omega
    have hpos : ∀ l : List Nat, (∀ x ∈ l, 1 ≤ m x) → (l.length : Int) ≤ (l.map m).sum := by
      intro l
      induction l with
      | nil => intro _; simp
      | cons a l ih =>
        intro hl
        have := ih fun x hx => hl x (List.mem_cons_of_mem _ hx)
        have := hl a (List.mem_cons_self ..)
        rw [List.map_cons, List.sum_cons, List.length_cons]; push_cast; omega
    have := hpos _ W.pos
    unfold Perc.left at hl
    have h0 : S.pool'.length = 0 := by omega
    exact List.length_eq_zero_iff.1 h0
  have hs := H.sel
  rcases hv with rfl | rfl
  · exact key _ hs h
  · exact key _ hs.1 h

/-- The loop of `run_once` follows the process. -/
theorem runLoop_growth (hv : v = .l1 ∨ v = .l2) (fuel : Nat) : ∀ {ds : Nat → Draw} {S S' : Perc α} {g : Growth} {seq : List Nat},
    Trace env v L S seq → Live env v L S → Follows L v S g → Perc.runLoop env v fuel ds S = .ok S' →
    ∃ seq', Trace env v L S' (seq ++ seq') ∧ Collected env v L S S' seq seq' ∧
      ∀ n, (Growth.run L v.deep (fun i => (ds i).pick) n g).placed <+: g.placed ++ seq' := by
  induction fuel with
  | zero => intro ds S S' g seq _ _ _ h; cases h
  | succ fuel ih =>
    intro ds S S' g seq T H f h
    obtain ⟨S1, more, hp, H1, _, hb⟩ := H.place (ds 0)
    obtain ⟨f1, e1⟩ := f.next H hv (ds 0)
    have hn1 := nextState_eq hp
    simp only [Perc.runLoop] at h
    rw [hp] at h
    obtain ⟨_, A, M, hA, _⟩ := T.sim
    have haux := (placeOneSite_sim M hA.inv hp).1
    obtain ⟨A1, hst, M1⟩ := placeOneSite_steps M hA.inv hp
    cases more with
    | false =>
      replace h : (Except.ok S1 : Py (Perc α)) = _ := h
      rw [← Except.ok.inj h]
      have hf : S1.selectionFlag ≠ some .success := by
        obtain ⟨_, V1, hV, h' | h' | h'⟩ := placeOneSite_sim M hA.inv hp
        · exact absurd h'.2.1 (by simp)
        · rw [h'.1]; simp
        · rw [h'.1]; simp
      refine ⟨[], by rw [List.append_nil]; exact T.skipped hp hf, haux.collected, fun n => ?_⟩
      rw [Growth.run_nil v.deep n _ (by rw [← f.pool]; exact H.pool_nil hv (hb rfl).1)]
      simp
    | true =>
      replace h : (if S1.selectionFlag = some .success then _ else _) = _ := h
      split at h
      · next hf =>
        cases hd : S1.detectWrapping with
        | error e => rw [hd] at h; cases h
        | ok res =>
          obtain ⟨S2, w⟩ := res
          rw [hd] at h
          obtain ⟨k, hk, _, T2⟩ := T.place hp hf hd
          obtain ⟨haux2, _⟩ := detectWrapping_steps M1 (hA.inv.steps hst) hd
          obtain ⟨K, ho, _⟩ := detectWrapping_keep M1 (hA.inv.steps hst) hd
          replace h : (S2.record env >>= _) = _ := h
          cases hr : S2.record env with
          | error e => rw [hr] at h; cases h
          | ok S3 =>
            rw [hr] at h
            have hs : nextSite env v S (ds 0) = some k := by unfold nextSite; rw [hn1, if_pos hf, hk]
            rw [hn1] at f1
            have f2 := f1.keep K ho
            have f3 : Follows L v S3 (g.step L v.deep (ds 0).pick.1 (ds 0).pick.2) := by
              obtain ⟨p, _, rfl⟩ := record_ok hr
              exact ⟨f2.occ, f2.pool, fun s hs => by rw [← f2.cnt s hs]; cases v <;> rfl⟩
            obtain ⟨seq', T', c', hg⟩ := ih (T2.record hr) ((H1.detect hd).1.record hr).1 f3 h
            refine ⟨k :: seq', by simpa using T', c'.cons (haux.trans haux2) T2 hr, fun n => ?_⟩
            cases n with
            | zero => exact List.prefix_append _ _
            | succ n =>
              have := hg n
              rw [e1, hs] at this
              rw [Growth.run]
              simpa using this
      · next hf =>
        have hs : nextSite env v S (ds 0) = none := by unfold nextSite; rw [hn1, if_neg hf]
        rw [hn1] at f1
        obtain ⟨seq', T', c', hg⟩ := ih (T.skipped hp hf) H1 f1 h
        refine ⟨seq', T', c'.skip haux, fun n => ?_⟩
        cases n with
        | zero => exact List.prefix_append _ _
        | succ n =>
          have := hg n
          rw [e1, hs] at this
          rw [Growth.run]
          simpa using this

theorem Fresh.follows (h : Fresh env v L S) : Follows L v S (Growth.start S.siteIds) := by
  obtain ⟨_, _, h0, hocc⟩ := h.live
  refine ⟨fun s => ?_, ?_, fun s hs => ?_⟩
  · constructor
    · intro h; exact absurd h (hocc s)
    · intro h; simp [Growth.start] at h
  · unfold Perc.pool'; rw [h0]; rfl
  · rw [h.dropCnt hs]; rfl

/-- The order in which the process places the sites in `n` calls. -/
def growthOrder (L : Nat) (deep : Bool) (cand : List Nat) (n : Nat) (ds : Nat → Nat × Dir) : List Nat :=
  (Growth.run L deep ds n (Growth.start cand)).placed

theorem Fresh.growth (h : Fresh env v L S) (hv : v = .l1 ∨ v = .l2) (n : Nat) (ds : Nat → Draw) :
    order env v n ds S = growthOrder L v.deep S.siteIds n fun i => (ds i).pick := by
  have := h.live.1.growth hv n ds h.follows
  unfold growthOrder
  rw [this]; rfl

/-- C92: the calls of `place_one_site` of L1 and L2 on a new or reset object place the sites of the growth process of the specification, in
its order; the candidates are the sites in the order of the site list. -/
theorem C92_calls (h : Fresh env v L S) (hv : v = .l1 ∨ v = .l2) (n : Nat) (ds : Nat → Draw) :
    ∃ log S1, callLog env v n ds S = .ok (S1, log) ∧ placedBy log = growthOrder L v.deep S.siteIds n fun i => (ds i).pick := by
  obtain ⟨log, S1, e, _, hq, _⟩ := h.placements_spec n ds
  exact ⟨log, S1, e, hq ▸ h.growth hv n ds⟩

/-- C92: the same for `run_once`: it places the sites in the order of the process, however many calls beyond the `5 L²` needed the process is
run for. -/
theorem C92_run_once (h : Fresh env v L S) (hv : v = .l1 ∨ v = .l2) {fuel : Nat} (hf : 5 * (L * L) < fuel) (ds : Nat → Draw) {n : Nat}
    (hn : 5 * (L * L) ≤ n) :
    ∃ S1, S.runOnce env v fuel ds = .ok { S1 with firstRun := false } ∧
      Trace env v L { S1 with firstRun := false } (growthOrder L v.deep S.siteIds n fun i => (ds i).pick) ∧
      Collected env v L S S1 [] (growthOrder L v.deep S.siteIds n fun i => (ds i).pick) ∧
      (growthOrder L v.deep S.siteIds n fun i => (ds i).pick).Perm (List.range (L * L)) := by
  have hI : initBudget L v = 5 * (L * L) := by rcases hv with rfl | rfl <;> rfl
  obtain ⟨H, hb, _⟩ := h.live
  obtain ⟨S1, e, _, hocc⟩ := H.runLoop fuel ds (by rw [hb, hI]; exact_mod_cast hf)
  obtain ⟨seq, T, C, hg⟩ := runLoop_growth hv fuel h.trace H h.follows e
  rw [List.nil_append] at T
  obtain ⟨hl, hp⟩ := T.full_length hocc
  have hp2 := (h.order_spec n ds).2.2 (by rw [hI]; exact_mod_cast hn)
  rw [h.growth hv] at hp2
  have heq : (growthOrder L v.deep S.siteIds n fun i => (ds i).pick) = seq := by
    have := hg n
    rw [show (Growth.start S.siteIds).placed = [] from rfl, List.nil_append] at this
    exact this.eq_of_length (by show (growthOrder _ _ _ _ _).length = _; rw [hp2.length_eq, hl, List.length_range])
  rw [heq]
  refine ⟨S1, ?_, T.data false _ _ _ _ _, C, hp⟩
  simp only [Perc.runOnce]; rw [e]; rfl

/-- C92: for `reset(); run_once()` the order is a function of the random numbers of the placements alone: neither the history of the object
nor the numbers used for shuffling matter. -/
theorem C92_realisation (h : DefReach env v L S) (hv : v = .l1 ∨ v = .l2) (shuffle : Nat → Nat) {fuel : Nat} (hf : 5 * (L * L) < fuel)
    (ds : Nat → Draw) : ∃ S1 S2, S.reset env v shuffle = .ok S1 ∧ S1.runOnce env v fuel ds = .ok S2 ∧
      Trace env v L S2 (growthOrder L v.deep (List.range (L * L)) (5 * (L * L)) fun i => (ds i).pick) ∧
      (growthOrder L v.deep (List.range (L * L)) (5 * (L * L)) fun i => (ds i).pick).Perm (List.range (L * L)) := by
  obtain ⟨S1, e1, _⟩ := h.live.reset shuffle
  have hid := reset_siteIds h e1
  rw [if_pos hv] at hid
  obtain ⟨S2, e2, T, _, hp⟩ := C92_run_once (.reset h e1) hv hf ds le_rfl
  rw [hid] at T hp
  exact ⟨S1, _, e1, e2, T, hp⟩

/-- Non-trivial case: complete runs of the process on the lattice of length 3, each candidate number being used three times and each direction
twice in a row.  L1 and L2 differ from the seventh site on. -/
theorem C92_sample :
    growthOrder 3 false (List.range 9) 45 (fun i => (i / 3, dirOf (i / 2))) = [0, 1, 3, 4, 2, 8, 6, 5, 7] ∧
    growthOrder 3 true (List.range 9) 45 (fun i => (i / 3, dirOf (i / 2))) = [0, 1, 3, 4, 2, 8, 5, 6, 7] := by
  decide +kernel

/-- The objects of `C92_realisation` exist: a used L2 object of length 3. -/
example : ∃ S : Perc Unit, DefReach demoEnv .l2 3 S ∧ S.occupiedCount = 1 := by
  obtain ⟨S, h, hp⟩ := checkOps_def (env := demoEnv) (v := .l2) (L := 3) (ops := [.place ⟨0, 0⟩]) (p := fun S => decide (S.occupiedCount = 1))
    (by decide) (by decide +kernel)
  exact ⟨S, h, of_decide_eq_true hp⟩

end SqPerc
