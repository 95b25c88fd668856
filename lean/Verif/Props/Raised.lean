import Verif.Proof.Raise
import Verif.Props.Lists
import Verif.Props.Entropy
import Verif.Props.Clusters
import Verif.Props.Wrapping
/-
C71: which calls raise, and what can be relied on when the caller catches the exception and goes on.
-/
namespace SqPerc

variable {α : Type} {L : Nat} {env : Env α} {v : Variant} {S S' : Perc α} {e : PyErr}

/-! ### Which calls raise -/

/-- C71: in the plain classes `place_one_site` raises exactly when the list is not exhausted and its next entry is an occupied site; the
exception is an AssertionError. -/
theorem C71_place_plain (h : Reach env v L S) (hv : v.plain = true) (d : Draw) :
    S.placeOneSite env v d = .error e ↔ e = .assertionError ∧ S.currentIdx < S.maxIter ∧ ∃ k, S.siteIds[S.currentIdx]? = some k ∧ S.Occ k := by
  obtain ⟨_, A, M, hA⟩ := h.sim
  constructor
  · intro he
    rcases place_plain M hA.inv hv (h.sized hv) h.ids.1 d with ⟨_, hp⟩ | ⟨_, k, _, _, S1, hp, _⟩ | ⟨hi, k, hk, ho, hp, _⟩
    · rw [hp] at he; cases he
    · rw [hp] at he; cases he
    · rw [hp] at he
      exact ⟨(Except.error.inj he).symm, hi, k, hk, ho⟩
  · rintro ⟨rfl, hi, k, hk, ho⟩
    rcases place_plain M hA.inv hv (h.sized hv) h.ids.1 d with ⟨hj, _⟩ | ⟨_, k', hk', ho', _⟩ | ⟨_, _, _, _, hp, _⟩
    · omega
    · rw [hk] at hk'
      rw [Option.some.inj hk'] at ho
      exact absurd ho ho'
    · exact hp

/-- C71: in L1 and L2 it raises exactly when the list is exhausted before `L²` entries have been used up; the exception is the ValueError
of `random.randint` on an empty range. -/
theorem C71_place_l1l2 (h : Reach env v L S) (hv : v.plain = false) (d : Draw) :
    S.placeOneSite env v d = .error e ↔ e = .valueError ∧ S.currentIdx < L * L ∧ S.siteIds.length ≤ S.currentIdx := by
  obtain ⟨_, A, M, hA⟩ := h.sim
  rcases place_l1l2 M hA.inv hv h.cntOk h.ids.1 d with ⟨h1, h2, hp⟩ | ⟨h1, r, hp⟩
  · rw [hp]
    exact ⟨fun he => ⟨(Except.error.inj he).symm, h1, h2⟩, fun he => (by rw [he.1])⟩
  · rw [hp]
    exact ⟨fun he => (by cases he), fun he => absurd he.2 h1⟩

/-- C71: `detect_wrapping` raises exactly when no site has ever been selected; the exception is a TypeError. -/
theorem C71_detect (h : Reach env v L S) : S.detectWrapping = .error e ↔ e = .typeError ∧ S.selected = none := by
  constructor
  · intro he
    cases hs : S.selected with
    | none => rw [detect_none h hs] at he; exact ⟨(Except.error.inj he).symm, rfl⟩
    | some k =>
      obtain ⟨_, A, M, hA⟩ := h.sim
      obtain ⟨S1, w, h1⟩ := detectWrapping_ok M hA.inv (by rw [hs]; simp)
      rw [h1] at he; cases he
  · rintro ⟨rfl, hs⟩; exact detect_none h hs

/-- C71: the `set_custome_*` methods raise exactly on an empty list; the exception is the ValueError of `max`. -/
theorem C71_set_lists (h : Reach env v L S) (b : Bool) (draws : Nat → Nat) :
    (∀ ids, S.setCustomIds ids b draws = .error e ↔ e = .valueError ∧ ids = []) ∧
    (∀ idxs, S.setCustomIndices idxs b draws = .error e ↔ e = .valueError ∧ idxs = []) := by
  have g : ∀ ids, S.setCustomIds ids b draws = .error e ↔ e = .valueError ∧ ids = [] := by
    intro ids
    constructor
    · intro he
      by_cases hne : ids = []
      · subst hne; exact ⟨(Except.error.inj he).symm, rfl⟩
      · rcases C30_validates h hne b draws with ⟨_, h1⟩ | ⟨_, S1, h1, _⟩ <;> rw [h1] at he <;> cases he
    · rintro ⟨rfl, rfl⟩; rfl
  refine ⟨g, fun idxs => ?_⟩
  rw [C31_encodes, g, List.map_eq_nil_iff]

/-- C71: `reset` and `shuffle` never raise. -/
theorem C71_reset_shuffle (h : Reach env v L S) (draws : Nat → Nat) :
    (∃ S', S.reset env v draws = .ok S') ∧ ∃ S', S.shuffle draws = .ok S' :=
  ⟨h.reset_total draws, shuffle_total (fun k hk => by rw [h.ids.2]; exact h.ids.1 k hk) draws⟩

/-- C71: in the plain classes, as long as no custom list is set, `swap_ids` raises exactly when the two ids differ and one of them is no
site id; the exception is an IndexError and the object is unchanged. -/
theorem C71_swap (h : Reach env v L S) (hv : v.plain = true) (hm : S.modeCustom = false) (i j : Nat) :
    (S.swapIds i j = .error e ↔ e = .indexError ∧ i ≠ j ∧ (L * L ≤ i ∨ L * L ≤ j)) ∧
    (S.swapIds i j = .error e → S.swapRaised i j = S) := by
  have hlen := h.ids.2
  have bad : i ≠ j → (L * L ≤ i ∨ L * L ≤ j) → S.swapIds i j = .error .indexError := by
    intro hij hb
    simp only [Perc.swapIds, if_neg hij, pyGet]
    by_cases hi : L * L ≤ i
    · rw [List.getElem?_eq_none (by omega)]; rfl
    · rw [List.getElem?_eq_getElem (by omega), List.getElem?_eq_none (l := S.revIds) (i := j) (by omega)]; rfl
  have key : S.swapIds i j = .error e ↔ e = .indexError ∧ i ≠ j ∧ (L * L ≤ i ∨ L * L ≤ j) := by
    constructor
    · intro he
      by_cases hij : i = j
      · rw [hij] at he; simp [Perc.swapIds] at he
      · by_cases hb : L * L ≤ i ∨ L * L ≤ j
        · rw [bad hij hb] at he
          exact ⟨(Except.error.inj he).symm, hij, hb⟩
        · obtain ⟨S1, h1, _⟩ := C32_swap h hv hm (i := i) (j := j) (by omega) (by omega)
          rw [h1] at he; cases he
    · rintro ⟨rfl, hij, hb⟩; exact bad hij hb
  refine ⟨key, fun he => ?_⟩
  obtain ⟨_, _, hb⟩ := key.1 he
  unfold Perc.swapRaised
  by_cases hi : L * L ≤ i
  · rw [List.getElem?_eq_none (by omega)]
  · rw [List.getElem?_eq_none (l := S.revIds) (i := j) (by omega)]
    split
    · next h2 => cases h2
    · rfl

/-! ### What a call that raises leaves -/

/-- C71: a placement that raises changes nothing but the selected site, which in the plain classes becomes the occupied site of the list
that was refused; and it raises again, as long as nothing else is called. -/
theorem C71_place_raised (h : Reach env v L S) {d : Draw} (he : S.placeOneSite env v d = .error e) :
    (v.plain = false → S.placeRaised v = S) ∧
    (v.plain = true → ∃ k, S.siteIds[S.currentIdx]? = some k ∧ S.Occ k ∧ S.placeRaised v = { S with selected := some k }) ∧
    ∀ d', (S.placeRaised v).placeOneSite env v d' = .error e ∧ (S.placeRaised v).placeRaised v = S.placeRaised v := by
  obtain ⟨_, A, M, hA⟩ := h.sim
  cases hv : v.plain with
  | false =>
    have e1 : ∀ T : Perc α, T.placeRaised v = T := fun T => by cases v <;> first | rfl | cases hv
    refine ⟨fun _ => e1 S, fun h => (by cases h), fun d' => ?_⟩
    rw [e1 S]
    exact ⟨(C71_place_l1l2 h hv d').2 ((C71_place_l1l2 h hv d).1 he), e1 S⟩
  | true =>
    rcases place_plain M hA.inv hv (h.sized hv) h.ids.1 d with ⟨_, hp⟩ | ⟨_, k, _, _, S1, hp, _⟩ | ⟨hi, k, hk, ho, hp, hr⟩
    · rw [hp] at he; cases he
    · rw [hp] at he; cases he
    · refine ⟨fun h => (by cases h), fun _ => ⟨k, hk, ho, hr⟩, fun d' => ?_⟩
      have hR : Reach env v L (S.placeRaised v) := by
        have hx : e = .assertionError := ((C71_place_plain h hv d).1 he).1
        have hs : step env v S (.place d) = .error e := by simp only [step]; rw [he]; rfl
        exact h.caught (.place d) hs (by rw [hx]; simp)
      have ho' : (S.placeRaised v).Occ k := by rw [hr]; exact ho
      obtain ⟨_, A', M', hA'⟩ := hR.sim
      have hk' : (S.placeRaised v).siteIds[(S.placeRaised v).currentIdx]? = some k := by rw [hr]; exact hk
      have hi' : (S.placeRaised v).currentIdx < (S.placeRaised v).maxIter := by rw [hr]; exact hi
      rcases place_plain M' hA'.inv hv (hR.sized hv) hR.ids.1 d' with ⟨hj, _⟩ | ⟨_, k', hk2, ho2, _⟩ | ⟨_, k', hk2, _, hp2, hr2⟩
      · omega
      · rw [hk'] at hk2; rw [← Option.some.inj hk2] at ho2; exact absurd ho' ho2
      · rw [hk'] at hk2
        obtain rfl := Option.some.inj hk2
        refine ⟨by rw [hp2, ← he, hp], ?_⟩
        rw [hr2, hr]

/-- C71: a `run_once` of a plain class that raises has placed the entries of the list from the current position up to one that is already
occupied, and has recorded exactly the rows of those placements: the object is as after these placements one by one. -/
theorem C71_run_raised (h : Reach env .l0 L S) {seq : List Nat} (T : Trace env .l0 L S seq) {fuel : Nat} {ds : Nat → Draw}
    (he : step env .l0 S (.runOnce fuel ds) = .error e) (hf : e ≠ .outOfFuel) :
    e = .assertionError ∧ ∃ n k, S.siteIds[S.currentIdx + n]? = some k ∧ k ∈ seq ++ (S.siteIds.drop S.currentIdx).take n ∧
      ∃ S', stepRaised env .l0 S (.runOnce fuel ds) = S' ∧ Trace env .l0 L S' (seq ++ (S.siteIds.drop S.currentIdx).take n) ∧
        Collected env .l0 L S S' seq ((S.siteIds.drop S.currentIdx).take n) ∧ S'.siteIds = S.siteIds ∧ S'.currentIdx = S.currentIdx + n ∧
        S'.selected = some k := by
  have he' : Perc.runLoop env .l0 fuel ds S = .error e := by
    simp only [step, Perc.runOnceV, Perc.runOnce] at he
    cases hr : Perc.runLoop env .l0 fuel ds S with
    | error x => rw [hr] at he; exact congrArg Except.error (Except.error.inj he)
    | ok S1 => rw [hr] at he; cases he
  obtain ⟨g1, n, k, g2, g3, _, g5, g6, g7, g8, g9⟩ := T.run_raised rfl fuel (h.sized rfl) h.ids.1 he' hf
  exact ⟨g1, n, k, g2, g3, _, rfl, g5, g6, g7, g8, g9⟩

/-- The loop of `run_once` on a list with a repetition. -/
theorem L0Ready.run_repeat {ids : List Nat} (hv : v.plain = true) {n k : Nat} (hnd : (ids.take n).Nodup) (hk : ids[n]? = some k)
    (hrep : k ∈ ids.take n) (fuel : Nat) : ∀ {S : Perc α} {i : Nat} (ds : Nat → Draw), L0Ready L S ids i → Trace env v L S (ids.take i) →
    i ≤ n → n - i < fuel → Perc.runLoop env v fuel ds S = .error .assertionError := by
  induction fuel with
  | zero => intro S i ds _ _ _ h; omega
  | succ fuel ih =>
    intro S i ds H T hin hf
    obtain ⟨_, A, M, hA, _⟩ := T.sim
    simp only [Perc.runLoop]
    have hn := (List.getElem?_eq_some_iff.1 hk).1
    rcases Nat.lt_or_ge i n with hi | hi
    · have hil : i < ids.length := by omega
      have hki := List.getElem?_eq_getElem hil
      have hnot : ids[i] ∉ ids.take i := not_mem_take (n := n) hnd hi hki
      obtain ⟨S1, p1, hfl, hsel1, R⟩ := H.place M hA.inv hv hki hnot (ds 0)
      obtain ⟨A1, hst, M1⟩ := placeOneSite_steps M hA.inv p1
      have hA1 := hA.steps hst
      obtain ⟨S2, w, hd⟩ := detectWrapping_ok M1 hA1.inv (by rw [hsel1]; simp)
      obtain ⟨haux2, _, _, A2, hst2, M2, _⟩ := detectWrapping_steps M1 hA1.inv hd
      obtain ⟨K, hocc, _⟩ := detectWrapping_keep M1 hA1.inv hd
      have T2 := T.placed p1 hfl hsel1 hd
      obtain ⟨S3, hr⟩ := record_progress M2 (hA1.steps hst2)
      have R3 : L0Ready L S3 ids (i + 1) := by
        obtain ⟨p, _, rfl⟩ := record_ok hr
        exact R.congr K.siteIds haux2.maxIter K.currentIdx hocc
      have et : ids.take i ++ [ids[i]] = ids.take (i + 1) := by rw [List.take_add_one, hki]; rfl
      rw [p1]
      show (if S1.selectionFlag = some .success then _ else _) = _
      rw [if_pos hfl]
      rw [hd]
      show (S2.record env >>= _) = _
      rw [hr]
      exact ih (fun j => ds (j + 1)) R3 (et ▸ T2.record hr) (by omega) (by omega)
    · obtain rfl : i = n := by omega
      rw [H.repeat M hA.inv hv hk hrep (ds 0)]; rfl

/-- C71: `run_once` on a custom list whose first `n` ids are distinct and whose next id repeats one of them raises AssertionError; the
first `n` ids are placed and their `n` rows recorded, and `first_run` stays as it was. -/
theorem C71_run_duplicate (h : Start env .l0 L S) {ids : List Int} (hids : ∀ i ∈ ids, 0 ≤ i ∧ i < (L : Int) * L) (draws : Nat → Nat) {n : Nat}
    (hnd : (ids.take n).Nodup) {i : Int} (hi : ids[n]? = some i) (hrep : i ∈ ids.take n) {fuel : Nat} (hf : n < fuel) (ds : Nat → Draw) :
    ∃ S1 S' seq, S.setCustomIds ids false draws = .ok S1 ∧ step env .l0 S1 (.runOnce fuel ds) = .error .assertionError ∧
      stepRaised env .l0 S1 (.runOnce fuel ds) = S' ∧ Trace env .l0 L S' seq ∧ seq.map Int.ofNat = ids.take n ∧
      Collected env .l0 L S1 S' [] seq ∧ S'.selected.map Int.ofNat = some i := by
  have hn := (List.getElem?_eq_some_iff.1 hi).1
  have hne : ids ≠ [] := by rintro rfl; simp at hn
  obtain ⟨S1, e1, R, T, hR⟩ := h.setIds hne hids draws
  have hnd' : ((ids.map Int.toNat).take n).Nodup := by rw [← List.map_take]; exact nodup_map_toNat (take_hids hids n) hnd
  have hi' : (ids.map Int.toNat)[n]? = some i.toNat := by rw [List.getElem?_map, hi]; rfl
  have hrep' : i.toNat ∈ (ids.map Int.toNat).take n := by rw [← List.map_take]; exact List.mem_map_of_mem hrep
  have hloop := L0Ready.run_repeat (v := .l0) rfl hnd' hi' hrep' fuel ds R (by simpa using T) (Nat.zero_le _) (by omega)
  have hstep : step env .l0 S1 (.runOnce fuel ds) = .error .assertionError := by
    simp only [step, Perc.runOnceV, Perc.runOnce]; rw [hloop]; rfl
  have hS1 : Reach env .l0 L S1 := h.reach.step (.setIds ids false draws) e1
  obtain ⟨_, m, k, g2, g3, S', g4, g5, g6, _, _, g9⟩ := C71_run_raised hS1 T hstep (by simp)
  rw [R.siteIds, R.currentIdx, Nat.zero_add] at g2
  rw [R.siteIds, R.currentIdx, List.drop_zero, List.nil_append] at g3 g5
  rw [R.siteIds, R.currentIdx, List.drop_zero] at g6
  have hseq : ((ids.map Int.toNat).take m).Nodup := by
    obtain ⟨_, _, _, _, I⟩ := g5.sim
    exact I.nd
  have hm : m = n := by
    rcases Nat.lt_trichotomy m n with hlt | heq | hgt
    · exact absurd g3 (not_mem_take (n := n) hnd' hlt g2)
    · exact heq
    · exact absurd hrep' (not_mem_take (n := m) hseq hgt hi')
  subst hm
  have hk : k = i.toNat := Option.some.inj (g2.symm.trans hi')
  have back : ∀ j ∈ ids, Int.ofNat (Int.toNat j) = j := fun j hj => Int.toNat_of_nonneg (hids j hj).1
  refine ⟨S1, S', _, e1, hstep, g4, g5, ?_, g6, ?_⟩
  · rw [← List.map_take, List.map_map]
    conv => rhs; rw [← List.map_id (ids.take m)]
    exact List.map_congr_left fun j hj => back j (List.mem_of_mem_take hj)
  · rw [g9, hk]
    show some (Int.ofNat i.toNat) = some i
    rw [back i (List.mem_of_getElem? hi)]

/-! ### Going on after exceptions -/

/-- C71: whatever calls other than `reset` are made, raising or not, occupied sites stay occupied, bonds in one cluster stay in one
cluster, and the largest cluster does not shrink. -/
theorem C71_monotone (h : Reach env v L S) {ops : List Op} (hr : tryOps env v ops S = some S') (hn : ∀ op ∈ ops, op.isReset = false) :
    (∀ s, S.Occ s → S'.Occ s) ∧ S.largestCluster ≤ S'.largestCluster ∧
    ∀ b < 2 * (L * L), ∀ b' < 2 * (L * L), S.lat.getBondGid b = S.lat.getBondGid b' → S'.lat.getBondGid b = S'.lat.getBondGid b' := by
  obtain ⟨_, A, M, hA⟩ := h.sim
  obtain ⟨A', h1, M'⟩ := tryOps_steps M hA hr hn
  have ho : ∀ s, S.Occ s → S'.Occ s := fun s ho => (M'.occ_iff s).2 (h1.occ_mono hA.inv ((M.occ_iff s).1 ho))
  refine ⟨ho, ?_, fun b hb b' hb' hg => ?_⟩
  · rw [Perc.largestCluster, Perc.largestCluster, M.lsz, M'.lsz]; exact h1.lsz_mono
  · exact (C08_same_gid_iff_connected (tryOps_reach h hr) hb hb').2 (((C08_same_gid_iff_connected h hb hb').1 hg).mono ho)

/-- C71: nor does the entropy grow. -/
theorem C71_entropy {so : SetOrder} {S S' : Perc ℝ} (h : Reach (realEnv so) v L S) {ops : List Op} (hr : tryOps (realEnv so) v ops S = some S')
    (hn : ∀ op ∈ ops, op.isReset = false) : S'.entropy ≤ S.entropy := by
  obtain ⟨_, A, M, hA⟩ := h.sim
  obtain ⟨A', h1, M'⟩ := tryOps_steps M hA hr hn
  rw [Perc.entropy, Perc.entropy, M.ent, M'.ent]; exact h1.ent_le hA.inv

/-- Evaluate a check on the state after construction and some calls, each in `try … except`. -/
def checkTry (env : Env α) (v : Variant) (L : Nat) (ops : List Op) (p : Perc α → Bool) : Bool :=
  match Perc.new env L (fun _ => 0) with
  | .ok S => (match tryOps env v ops S with
    | some S => p S
    | none => false)
  | .error _ => false

theorem checkTry_reach {ops : List Op} {p : Perc α → Bool} (h : checkTry env v L ops p = true) : ∃ S, Reach env v L S ∧ p S = true := by
  unfold checkTry at h
  split at h
  · next S hn =>
    split at h
    · next S' hr => exact ⟨S', tryOps_reach (.new hn) hr, h⟩
    · cases h
  · cases h

/-- Whether a call raised a given exception. -/
def isErr {β : Type} (x : Py β) (e : PyErr) : Bool :=
  match x with
  | .error e' => decide (e' = e)
  | .ok _ => false

theorem isErr_iff {β : Type} {x : Py β} {e : PyErr} : isErr x e = true ↔ x = .error e := by
  unfold isErr; split <;> simp

/-- A history that goes on after exceptions: a detection before anything is placed, a custom list with a repeated id that makes `run_once`
raise, a placement that raises again, another list, and a placement that succeeds. -/
example : ∃ S, Reach demoEnv .l0 3 S ∧ S.occupiedCount = 3 ∧ S.selected = some 7 ∧ S.selectionFlag = some .success ∧
    S.placeOneSite demoEnv .l0 ⟨0, 0⟩ = .error .assertionError := by
  obtain ⟨S, h, hp⟩ := checkTry_reach (env := demoEnv) (v := .l0) (L := 3)
    (ops := [.detect, .setIds [4, 1, 4] false fun _ => 0, .runOnce 9 fun _ => ⟨0, 0⟩, .place0, .setIds [0, 0, 7, 7] false fun _ => 0, .place0])
    (p := fun S => S.occupiedCount == 3 && (S.selected == some 7 && (S.selectionFlag == some .success &&
      isErr (S.placeOneSite demoEnv .l0 ⟨0, 0⟩) .assertionError))) (by decide +kernel)
  simp only [Bool.and_eq_true, beq_iff_eq, isErr_iff] at hp
  exact ⟨S, h, hp⟩

/-- L1 with a short custom list: the list runs out and the placement raises ValueError. -/
example : ∃ S, Reach demoEnv .l1 3 S ∧ S.currentIdx = 1 ∧ S.siteIds.length = 1 ∧ S.placeOneSite demoEnv .l1 ⟨0, 0⟩ = .error .valueError := by
  obtain ⟨S, h, hp⟩ := checkTry_reach (env := demoEnv) (v := .l1) (L := 3)
    (ops := .setIds [4] false (fun _ => 0) :: [⟨0, 0⟩, ⟨0, 0⟩, ⟨0, 1⟩, ⟨0, 2⟩, ⟨0, 3⟩, ⟨0, 0⟩, ⟨0, 0⟩, ⟨0, 0⟩, ⟨0, 0⟩].map Op.place)
    (p := fun S => S.currentIdx == 1 && (S.siteIds.length == 1 && isErr (S.placeOneSite demoEnv .l1 ⟨0, 0⟩) .valueError)) (by decide +kernel)
  simp only [Bool.and_eq_true, beq_iff_eq, isErr_iff] at hp
  exact ⟨S, h, hp⟩

/-- The hypotheses of `C71_run_duplicate`. -/
example : ∃ S, Start demoEnv .l0 3 S ∧ (∀ i ∈ [(4 : Int), 1, 4], 0 ≤ i ∧ i < ((3 : Nat) : Int) * (3 : Nat)) ∧ ([(4 : Int), 1, 4].take 2).Nodup ∧
    [(4 : Int), 1, 4][2]? = some 4 ∧ (4 : Int) ∈ [(4 : Int), 1, 4].take 2 := by
  obtain ⟨rev, e, _⟩ := new_ok demoEnv (L := 3) (by decide) (fun _ => 0)
  exact ⟨_, .new e, by decide, by decide, rfl, by decide⟩

end SqPerc
