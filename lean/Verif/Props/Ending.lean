import Verif.Proof.Ending
import Verif.Props.L1L2
import Verif.Props.RaisedRuns
/-
C79: every run ends, and how.
-/
namespace SqPerc

variable {α : Type} {L : Nat} {env : Env α} {v : Variant} {S S1 S' : Perc α} {A : Abs α} {d : Draw} {b : Bool}

/-! ### The number of rounds -/

theorem fuelLeft_le (h : Reach env v L S) : S.fuelLeft L v ≤ L * L + 4 * S.siteIds.length := by
  unfold Perc.fuelLeft
  split
  · next hv => rw [← h.sized hv]; omega
  · have h1 : (S.pool'.map (wt (S.cntOf v))).sum ≤ (S.pool'.map fun _ => 4).sum := sum_le fun y hy => by
      have hy := h.ids.1 y (List.mem_of_mem_drop hy)
      have hc := h.cntLe y hy
      have : S.cntOf v y ≤ 4 := by cases v <;> first | exact hc.1 | exact hc.2
      unfold wt; omega
    have h2 : (S.pool'.map fun _ => 4).sum = 4 * S.pool'.length := by
      rw [List.map_const', List.sum_replicate, smul_eq_mul, Nat.mul_comm]
    have h3 : S.pool'.length ≤ S.siteIds.length := by unfold Perc.pool'; rw [List.length_drop]; omega
    omega

/-- More fuel does not change the result of a loop that has ended. -/
theorem runLoop_stable (fuel : Nat) : ∀ {ds : Nat → Draw} {S : Perc α}, Perc.runLoop env v fuel ds S ≠ .error .outOfFuel →
    ∀ more, Perc.runLoop env v (fuel + more) ds S = Perc.runLoop env v fuel ds S := by
  induction fuel with
  | zero => intro ds S h; exact absurd rfl h
  | succ fuel ih =>
    intro ds S h more
    rw [show fuel + 1 + more = (fuel + more) + 1 by omega]
    simp only [Perc.runLoop] at h ⊢
    cases hp : S.placeOneSite env v (ds 0) with
    | error e => rfl
    | ok r =>
      obtain ⟨S1, b⟩ := r
      rw [hp] at h
      cases b with
      | false => rfl
      | true =>
        replace h : (if S1.selectionFlag = some .success then _ else _) ≠ _ := h
        show (if S1.selectionFlag = some .success then _ else _) = (if S1.selectionFlag = some .success then _ else _)
        split
        · next hf =>
          rw [if_pos hf] at h
          cases hd : S1.detectWrapping with
          | error e => rfl
          | ok r =>
            obtain ⟨S2, w⟩ := r
            rw [hd] at h
            replace h : (S2.record env >>= _) ≠ _ := h
            show (S2.record env >>= _) = (S2.record env >>= _)
            cases hr : S2.record env with
            | error e => rfl
            | ok S3 => rw [hr] at h; exact ih h more
        · next hf => rw [if_neg hf] at h; exact ih h more

theorem testRunLoop_stable (fuel : Nat) : ∀ {ds : Nat → Draw} {S : Perc α}, Perc.testRunLoop env v fuel ds S ≠ .error .outOfFuel →
    ∀ more, Perc.testRunLoop env v (fuel + more) ds S = Perc.testRunLoop env v fuel ds S := by
  induction fuel with
  | zero => intro ds S h; exact absurd rfl h
  | succ fuel ih =>
    intro ds S h more
    rw [show fuel + 1 + more = (fuel + more) + 1 by omega]
    simp only [Perc.testRunLoop] at h ⊢
    cases hp : S.placeOneSite env v (ds 0) with
    | error e => rfl
    | ok r =>
      obtain ⟨S1, b⟩ := r
      rw [hp] at h
      cases b with
      | false => rfl
      | true =>
        replace h : (if S1.selectionFlag = some .success then _ else _) ≠ _ := h
        show (if S1.selectionFlag = some .success then _ else _) = (if S1.selectionFlag = some .success then _ else _)
        split
        · next hf =>
          rw [if_pos hf] at h
          cases hd : S1.detectWrapping with
          | error e => rfl
          | ok r =>
            obtain ⟨S2, w⟩ := r
            rw [hd] at h
            cases w with
            | true => rfl
            | false =>
              replace h : (S2.record env >>= _) ≠ _ := h
              show (S2.record env >>= _) = (S2.record env >>= _)
              cases hr : S2.record env with
              | error e => rfl
              | ok S3 => rw [hr] at h; exact ih h more
        · next hf => rw [if_neg hf] at h; exact ih h more

theorem spLoop_stable (fuel : Nat) : ∀ {S : Perc α}, Perc.spLoop env fuel S ≠ .error .outOfFuel →
    ∀ more, Perc.spLoop env (fuel + more) S = Perc.spLoop env fuel S := by
  induction fuel with
  | zero => intro S h; exact absurd rfl h
  | succ fuel ih =>
    intro S h more
    rw [show fuel + 1 + more = (fuel + more) + 1 by omega]
    simp only [Perc.spLoop] at h ⊢
    cases hp : S.placeOneSite env .sp ⟨0, 0⟩ with
    | error e => rfl
    | ok r =>
      obtain ⟨S1, b⟩ := r
      rw [hp] at h
      cases b with
      | false => rfl
      | true =>
        replace h : (if S1.selectionFlag = some .success then _ else _) ≠ _ := h
        show (if S1.selectionFlag = some .success then _ else _) = (if S1.selectionFlag = some .success then _ else _)
        split
        · next hf =>
          rw [if_pos hf] at h
          cases hd : S1.detectWrapping with
          | error e => rfl
          | ok r =>
            obtain ⟨S2, w⟩ := r
            rw [hd] at h
            cases w with
            | true =>
              replace h : (match S2.selected with
                  | none => .error .typeError
                  | some k => (S2.lat.getSite k >>= fun st =>
                      S2.scanRowCol st.index.c1.toNat st.index.c2.toNat >>= fun fs =>
                      if (fs.1 || fs.2) = true then pure ({ S2 with shortestP := S2.occupationProb env }, true)
                      else Perc.spLoop env fuel S2) : Py (Perc α × Bool)) ≠ .error .outOfFuel := h
              show (match S2.selected with
                  | none => .error .typeError
                  | some k => (S2.lat.getSite k >>= fun st =>
                      S2.scanRowCol st.index.c1.toNat st.index.c2.toNat >>= fun fs =>
                      if (fs.1 || fs.2) = true then pure ({ S2 with shortestP := S2.occupationProb env }, true)
                      else Perc.spLoop env (fuel + more) S2) : Py (Perc α × Bool)) =
                (match S2.selected with
                  | none => .error .typeError
                  | some k => (S2.lat.getSite k >>= fun st =>
                      S2.scanRowCol st.index.c1.toNat st.index.c2.toNat >>= fun fs =>
                      if (fs.1 || fs.2) = true then pure ({ S2 with shortestP := S2.occupationProb env }, true)
                      else Perc.spLoop env fuel S2) : Py (Perc α × Bool))
              cases hs : S2.selected with
              | none => rfl
              | some k =>
                rw [hs] at h
                replace h : (S2.lat.getSite k >>= _) ≠ _ := h
                show (S2.lat.getSite k >>= _) = (S2.lat.getSite k >>= _)
                cases hg : S2.lat.getSite k with
                | error e => rfl
                | ok st =>
                  rw [hg] at h
                  replace h : (S2.scanRowCol st.index.c1.toNat st.index.c2.toNat >>= _) ≠ _ := h
                  show (S2.scanRowCol st.index.c1.toNat st.index.c2.toNat >>= _) = (S2.scanRowCol st.index.c1.toNat st.index.c2.toNat >>= _)
                  cases hsc : S2.scanRowCol st.index.c1.toNat st.index.c2.toNat with
                  | error e => rfl
                  | ok fs =>
                    rw [hsc] at h
                    replace h : (if (fs.1 || fs.2) = true then _ else _) ≠ _ := h
                    show (if (fs.1 || fs.2) = true then _ else _) = (if (fs.1 || fs.2) = true then _ else _)
                    split
                    · rfl
                    · next hb => rw [if_neg hb] at h; exact ih h more
            | false => exact ih h more
        · next hf => rw [if_neg hf] at h; exact ih h more

/-! ### The plain classes -/

/-- `detect_wrapping` and the recording change no site. -/
theorem round_occ {S2 S3 : Perc α} {w : Bool} (G : Good env v L S1) (hd : S1.detectWrapping = .ok (S2, w)) (hr : S2.record env = .ok S3) :
    (∀ s, S3.Occ s ↔ S1.Occ s) ∧ S3.siteIds = S1.siteIds ∧ S3.currentIdx = S1.currentIdx := by
  obtain ⟨A, M, hA⟩ := G.sim
  have hlat : S2.lat = S1.lat := by
    rcases detectWrapping_sim M hA.inv hd with ⟨_, rfl, _⟩ | ⟨_, k, _, ⟨_, rfl, _⟩ | ⟨_, _, _, rfl⟩⟩ <;> rfl
  have K := (detectWrapping_keep M hA.inv hd).1
  obtain ⟨p, _, rfl⟩ := record_ok hr
  refine ⟨fun s => ?_, K.siteIds, K.currentIdx⟩
  show S2.Occ s ↔ _
  unfold Perc.Occ
  rw [hlat]

/-- The loop of `run_once` of the plain classes gets through the list exactly if no entry is, or becomes, occupied before its turn. -/
theorem runLoop_plain_iff (hv : v.plain = true) (fuel : Nat) : ∀ {ds : Nat → Draw} {S : Perc α}, Good env v L S → S.fuelLeft L v < fuel →
    ((∃ S', Perc.runLoop env v fuel ds S = .ok S') ↔ (S.siteIds.drop S.currentIdx).Nodup ∧ ∀ k ∈ S.siteIds.drop S.currentIdx, ¬ S.Occ k) := by
  induction fuel with
  | zero => intro ds S G h; omega
  | succ fuel ih =>
    intro ds S G h
    simp only [Perc.runLoop]
    obtain ⟨A, M, hA⟩ := G.sim
    rcases place_plain (env := env) M hA.inv hv (G.sized hv) G.lt (ds 0) with ⟨hi, hp⟩ | ⟨hi, k, hk, ho, S1, hp, hf, hsel, hids, hidx⟩ | ⟨hi, k, hk, ho, hp, hr⟩
    · rw [hp, List.drop_eq_nil_of_le (by rw [G.sized hv]; exact hi)]
      exact ⟨fun _ => ⟨List.nodup_nil, by simp⟩, fun _ => ⟨_, rfl⟩⟩
    · rw [hp]
      rcases G.place (ds 0) with hp' | ⟨S1', b, hp', G1, hlt, _⟩
      · rw [hp'] at hp; cases hp
      obtain ⟨rfl, rfl⟩ := Prod.mk.inj (Except.ok.inj (hp.symm.trans hp'))
      have hlt := hlt rfl
      obtain ⟨S2, w, hd⟩ := G1.detect_ok (by rw [hsel]; simp)
      obtain ⟨G2, e2⟩ := G1.detect hd
      obtain ⟨S3, hr⟩ := G2.record_ok
      obtain ⟨G3, e3⟩ := G2.record hr
      obtain ⟨q1, q2, q3⟩ := round_occ G1 hd hr
      obtain ⟨_, _, k', hk', _, _, hocc, _⟩ := (placeOneSite_occ M hA.inv hp).resolve_right (fun h => h.1 hf)
      obtain rfl : k' = k := Option.some.inj (hk'.symm.trans hsel)
      show (∃ S', (if S1.selectionFlag = some .success then _ else _) = _) ↔ _
      rw [if_pos hf, hd]
      show (∃ S', (S2.record env >>= _) = _) ↔ _
      rw [hr]
      refine (ih G3 (by omega)).trans ?_
      rw [q2, q3, hids, hidx, drop_cons hk, List.nodup_cons]
      simp only [List.mem_cons, q1, hocc]
      constructor
      · rintro ⟨h1, h2⟩
        refine ⟨⟨fun hm => h2 k' hm (Or.inr rfl), h1⟩, ?_⟩
        rintro j (rfl | hj)
        · exact ho
        · exact fun h => h2 j hj (Or.inl h)
      · rintro ⟨⟨h1, h2⟩, h3⟩
        refine ⟨h2, fun j hj h => ?_⟩
        rcases h with h | rfl
        · exact h3 j (Or.inr hj) h
        · exact h1 hj
    · rw [hp]
      refine ⟨fun ⟨_, h⟩ => (by cases h), fun h => absurd ho (h.2 k ?_)⟩
      rw [drop_cons hk]; simp

/-! ### L1 and L2 -/

/-- Sites that the class may place when it has drawn the candidate `x`. -/
def Within (v : Variant) (L x s : Nat) : Prop :=
  s = x ∨ ∃ dir, s = nbr L x dir ∨ v = .l2 ∧ s = nbr L (nbr L x dir) dir

/-- What the loop of `run_once` of L1 and L2 keeps, seen from its beginning `S0`. -/
structure Between (env : Env α) (v : Variant) (L : Nat) (S0 S : Perc α) : Prop where
  good : Good env v L S
  len : S.siteIds.length = S0.siteIds.length
  mono : S0.currentIdx ≤ S.currentIdx
  cur : S.currentIdx = S0.currentIdx ∨ S.currentIdx ≤ S.siteIds.length ∧ S.currentIdx ≤ L * L
  cover : ∀ x ∈ S0.pool', x ∈ S.pool' ∨ S.Occ x
  sub : ∀ x ∈ S.pool', x ∈ S0.pool'
  near : ∀ s, S.Occ s → S0.Occ s ∨ ∃ x ∈ S0.pool', Within v L x s
  keep : ∀ s, S0.Occ s → S.Occ s

theorem Between.refl (G : Good env v L S) : Between env v L S S :=
  ⟨G, rfl, le_refl _, Or.inl rfl, fun _ h => Or.inl h, fun _ h => h, fun _ h => Or.inl h, fun _ h => h⟩

/-- The site placed is within reach of a candidate. -/
theorem place_within (h0 : 0 < L) (M : Sim env L S A) (I : AInv L A) (hv : v.plain = false) (h : S.placeOneSite env v d = .ok (S', b))
    (hf : S'.selectionFlag = some .success) : ∃ k, S'.selected = some k ∧ ∃ x ∈ S.pool', Within v L x k := by
  cases v with
  | l0 => cases hv
  | sp => cases hv
  | l1 =>
    rcases l1_rule M I h with ⟨_, h2, _⟩ | ⟨_, x, hx, hxl, hc⟩
    · rw [hf] at h2; cases h2
    · have hm : x ∈ S.pool' := List.mem_of_getElem? hx
      rcases hc with ⟨_, _, h3, _⟩ | ⟨_, _, _, h3, _⟩ | ⟨_, _, h3, _⟩
      · exact ⟨x, h3, x, hm, Or.inl rfl⟩
      · exact ⟨_, h3, x, hm, Or.inr ⟨_, Or.inl rfl⟩⟩
      · rw [hf] at h3; cases h3
  | l2 =>
    rcases l2_rule M I h with ⟨_, h2, _⟩ | ⟨_, x, hx, hxl, hc⟩
    · rw [hf] at h2; cases h2
    · have hm : x ∈ S.pool' := List.mem_of_getElem? hx
      rcases hc with ⟨_, _, h3, _⟩ | ⟨_, _, _, h3, _⟩ | ⟨o1, o2, o3, _, h3, _⟩ | ⟨_, _, _, h3, _⟩
      · exact ⟨x, h3, x, hm, Or.inl rfl⟩
      · exact ⟨_, h3, x, hm, Or.inr ⟨_, Or.inl rfl⟩⟩
      · refine ⟨_, h3, x, hm, ?_⟩
        by_cases hcr : Crosses L x (dirOf d.b)
        · by_cases h2 : 2 ≤ L
          · rw [zOf_crossing h2 hxl _ hcr] at o3; exact absurd o1 o3
          · obtain rfl : L = 1 := by omega
            have hz := (siteBeyond_mk (V := A.V) hxl (nbr_lt hxl (dirOf d.b))).2
            have : zOf 1 x (nbr 1 x (dirOf d.b)) = x := by omega
            rw [this] at o3; exact absurd o1 o3
        · rw [zOf_ahead hxl _ hcr]; exact Or.inr ⟨_, Or.inr ⟨rfl, rfl⟩⟩
      · rw [hf] at h3; cases h3

theorem Between.place {S0 : Perc α} (h0 : 0 < L) (hv : v.plain = false) (B : Between env v L S0 S) (h : S.placeOneSite env v d = .ok (S', b)) :
    Between env v L S0 S' := by
  obtain ⟨A, M, hA⟩ := B.good.sim
  have I := hA.inv
  have G' : Good env v L S' := by
    rcases B.good.place d with hp | ⟨S1, b1, hp, G1, _⟩
    · rw [hp] at h; cases h
    · rw [hp] at h
      obtain ⟨rfl, _⟩ := Prod.mk.inj (Except.ok.inj h)
      exact G1
  rcases place_pool M I hv h with ⟨rfl, hc, e1, e2, e3, ho⟩ | ⟨rfl, h1, h2, e1, e2, e3, e4, ho, hf, e5⟩ | ⟨rfl, h1, h2, rnd, x, hr, hx, hxl, hox, e1, e2, ho, e4, e3, e5⟩
  · have hp : S'.pool' = S.pool' := by unfold Perc.pool'; rw [e1, e2]
    refine ⟨G', by rw [e1]; exact B.len, by rw [e2]; exact B.mono, by rw [e1, e2]; exact B.cur, fun x hx => ?_, fun x hx => B.sub x (by rwa [hp] at hx),
      fun s hs => B.near s ((ho s).1 hs), fun s hs => (ho s).2 (B.keep s hs)⟩
    rw [hp, ho]; exact B.cover x hx
  · have hp : S'.pool' = S.pool' := by unfold Perc.pool'; rw [e1, e2]
    obtain ⟨_, _, k, hk, _, _, hocc, _⟩ := (placeOneSite_occ M I h).resolve_right (fun g => g.1 hf)
    obtain ⟨k', hk', x, hx, hw⟩ := place_within h0 M I hv h hf
    obtain rfl : k' = k := Option.some.inj (hk'.symm.trans hk)
    refine ⟨G', by rw [e1]; exact B.len, by rw [e2]; exact B.mono, by rw [e1, e2]; exact B.cur, fun x hx => ?_, fun x hx => B.sub x (by rwa [hp] at hx),
      fun s hs => ?_, fun s hs => ho s (B.keep s hs)⟩
    · rw [hp]
      exact (B.cover x hx).imp_right (ho x)
    · rcases (hocc s).1 hs with g | rfl
      · exact B.near s g
      · exact Or.inr ⟨x, B.sub x hx, hw⟩
  · have hn : ∀ y < L * L, 0 ≤ S.cntOf v y := fun y hy => by
      cases v <;> first | exact (B.good.cnt y hy).1 | exact (B.good.cnt y hy).2
    obtain ⟨_, f1, f2⟩ := fail_lt B.good.lt hn h2 hr hx e1 e2 e4
    have hl : S'.siteIds.length = S.siteIds.length := by
      rw [e1]; split
      · unfold dropAt; rw [List.length_set]
      · rfl
    refine ⟨G', hl.trans B.len, ?_, ?_, fun y hy => ?_, fun y hy => B.sub y (f2 y hy), fun s hs => B.near s ((ho s).1 hs), fun s hs => (ho s).2 (B.keep s hs)⟩
    · have := B.mono
      rw [e2]; split <;> omega
    · rw [hl, e2]
      split
      · exact Or.inr ⟨by omega, by omega⟩
      · exact B.cur
    · rcases B.cover y hy with g | g
      · rcases f1 y g with g | rfl
        · exact Or.inl g
        · exact Or.inr ((ho y).2 hox)
      · exact Or.inr ((ho y).2 g)

theorem Between.congr {S0 : Perc α} (B : Between env v L S0 S) (G : Good env v L S') (h1 : S'.siteIds = S.siteIds) (h2 : S'.currentIdx = S.currentIdx)
    (ho : ∀ s, S'.Occ s ↔ S.Occ s) : Between env v L S0 S' := by
  have hp : S'.pool' = S.pool' := by unfold Perc.pool'; rw [h1, h2]
  refine ⟨G, by rw [h1]; exact B.len, by rw [h2]; exact B.mono, by rw [h1, h2]; exact B.cur, fun x hx => ?_, fun x hx => B.sub x (by rwa [hp] at hx),
    fun s hs => B.near s ((ho s).1 hs), fun s hs => (ho s).2 (B.keep s hs)⟩
  rw [hp, ho]; exact B.cover x hx

theorem Between.detect {S0 : Perc α} {w : Bool} (B : Between env v L S0 S) (h : S.detectWrapping = .ok (S', w)) : Between env v L S0 S' := by
  obtain ⟨A, M, hA⟩ := B.good.sim
  have hlat : S'.lat = S.lat := by
    rcases detectWrapping_sim M hA.inv h with ⟨_, rfl, _⟩ | ⟨_, k, _, ⟨_, rfl, _⟩ | ⟨_, _, _, rfl⟩⟩ <;> rfl
  have K := (detectWrapping_keep M hA.inv h).1
  exact B.congr (B.good.detect h).1 K.siteIds K.currentIdx (fun s => by unfold Perc.Occ; rw [hlat])

theorem Between.record {S0 : Perc α} (B : Between env v L S0 S) (h : S.record env = .ok S') : Between env v L S0 S' := by
  have G := (B.good.record h).1
  obtain ⟨p, _, rfl⟩ := record_ok h
  exact B.congr G rfl rfl (fun _ => Iff.rfl)

/-- A run of L1 or L2 that ends normally has used up `L²` entries of the list. -/
theorem runLoop_exhausted (h0 : 0 < L) (hv : v.plain = false) (fuel : Nat) : ∀ {ds : Nat → Draw} {S S' S0 : Perc α}, Between env v L S0 S →
    Perc.runLoop env v fuel ds S = .ok S' → Between env v L S0 S' ∧ L * L ≤ S'.currentIdx := by
  induction fuel with
  | zero => intro ds S S' S0 _ h; cases h
  | succ fuel ih =>
    intro ds S S' S0 B h
    simp only [Perc.runLoop] at h
    cases h1 : S.placeOneSite env v (ds 0) with
    | error e => rw [h1] at h; cases h
    | ok res =>
      obtain ⟨S1, more⟩ := res
      rw [h1] at h
      have B1 := B.place h0 hv h1
      cases more with
      | false =>
        replace h : (Except.ok S1 : Py (Perc α)) = _ := h
        rw [← Except.ok.inj h]
        obtain ⟨A, M, hA⟩ := B.good.sim
        rcases place_pool M hA.inv hv h1 with ⟨_, hc, _, e2, _⟩ | ⟨hb, _⟩ | ⟨hb, _⟩
        · exact ⟨B1, by rw [e2]; exact hc⟩
        · cases hb
        · cases hb
      | true =>
        replace h : (if S1.selectionFlag = some .success then _ else _) = _ := h
        split at h
        · cases h2 : S1.detectWrapping with
          | error e => rw [h2] at h; cases h
          | ok res =>
            obtain ⟨S2, w⟩ := res
            rw [h2] at h
            replace h : (S2.record env >>= _) = _ := h
            cases h3 : S2.record env with
            | error e => rw [h3] at h; cases h
            | ok S3 => rw [h3] at h; exact ih ((B1.detect h2).record h3) h
        · exact ih B1 h

/-- A run of L1 or L2 that raises has run out of candidates before `L²` entries were used. -/
theorem runLoop_starved (h0 : 0 < L) (hv : v.plain = false) (fuel : Nat) : ∀ {ds : Nat → Draw} {S S0 : Perc α} {e : PyErr}, Between env v L S0 S →
    Perc.runLoop env v fuel ds S = .error e → e ≠ .outOfFuel →
    Between env v L S0 (S.runRaised env v fuel ds) ∧ (S.runRaised env v fuel ds).siteIds.length ≤ (S.runRaised env v fuel ds).currentIdx ∧
      (S.runRaised env v fuel ds).currentIdx < L * L := by
  induction fuel with
  | zero => intro ds S S0 e _ h he; exact absurd (Except.error.inj h).symm he
  | succ fuel ih =>
    intro ds S S0 e B h he
    simp only [Perc.runLoop] at h
    simp only [Perc.runRaised]
    obtain ⟨A, M, hA⟩ := B.good.sim
    rcases place_l1l2 (env := env) M hA.inv hv B.good.cnt B.good.lt (ds 0) with ⟨x1, x2, hp⟩ | ⟨_, ⟨S1, more⟩, hp⟩
    · rw [hp]
      have eU : S.placeRaised v = S := by cases v <;> first | rfl | cases hv
      show Between env v L S0 (S.placeRaised v) ∧ _
      simp only [eU]
      exact ⟨B, x2, x1⟩
    · rw [hp] at h ⊢
      have B1 := B.place h0 hv hp
      cases more with
      | false => cases h
      | true =>
        replace h : (if S1.selectionFlag = some .success then _ else _) = _ := h
        show Between env v L S0 (if S1.selectionFlag = some .success then _ else _) ∧ (if S1.selectionFlag = some .success then _ else _ : Perc α).siteIds.length ≤
          (if S1.selectionFlag = some .success then _ else _ : Perc α).currentIdx ∧ (if S1.selectionFlag = some .success then _ else _ : Perc α).currentIdx < _
        split at h
        · next hf =>
          simp only [if_pos hf]
          obtain ⟨A1, M1, hA1⟩ := B1.good.sim
          obtain ⟨_, _, k, hk, _⟩ := (placeOneSite_occ M hA.inv hp).resolve_right (fun g => g.1 hf)
          obtain ⟨S2, w, h2⟩ := B1.good.detect_ok (by rw [hk]; simp)
          rw [h2] at h ⊢
          have B2 := B1.detect h2
          obtain ⟨S3, h3⟩ := B2.good.record_ok
          replace h : (S2.record env >>= _) = _ := h
          rw [h3] at h
          simp only [h3]
          exact ih (B2.record h3) h he
        · next hf =>
          simp only [if_neg hf]
          exact ih B1 h he

/-! ### The claims -/

theorem step_run {fuel : Nat} {ds : Nat → Draw} (hv : v ≠ .sp) : step env v S (.runOnce fuel ds) = S.runOnce env v fuel ds := by
  cases v with
  | l0 => rfl
  | l1 => rfl
  | l2 => rfl
  | sp => exact absurd rfl hv

theorem runOnce_eq {fuel : Nat} {ds : Nat → Draw} {e : PyErr} :
    (S.runOnce env v fuel ds = .error e ↔ Perc.runLoop env v fuel ds S = .error e) ∧
    ((∃ S', S.runOnce env v fuel ds = .ok S') ↔ ∃ S', Perc.runLoop env v fuel ds S = .ok S') := by
  simp only [Perc.runOnce]
  cases Perc.runLoop env v fuel ds S with
  | error x => exact ⟨⟨fun h => congrArg Except.error (Except.error.inj h), fun h => congrArg Except.error (Except.error.inj h)⟩,
      ⟨fun ⟨_, h⟩ => (by cases h), fun ⟨_, h⟩ => (by cases h)⟩⟩
  | ok S1 => exact ⟨⟨fun h => (by cases h), fun h => (by cases h)⟩, ⟨fun _ => ⟨_, rfl⟩, fun _ => ⟨_, rfl⟩⟩⟩

/-- C79: no call runs forever: on an object with any history, `run_once()` and `test_run_once()` of every class end, whatever is drawn, within
`L² + 4n + 1` rounds for a list of `n` candidates; the result is the same for every larger bound on the rounds. -/
theorem C79_ends (h : Reach env v L S) (ds : Nat → Draw) {fuel : Nat} (hf : L * L + 4 * S.siteIds.length < fuel) :
    step env v S (.runOnce fuel ds) ≠ .error .outOfFuel ∧ step env v S (.testRunOnce fuel ds) ≠ .error .outOfFuel ∧
    ∀ more, step env v S (.runOnce (fuel + more) ds) = step env v S (.runOnce fuel ds) ∧
      step env v S (.testRunOnce (fuel + more) ds) = step env v S (.testRunOnce fuel ds) := by
  have hlt : S.fuelLeft L v < fuel := Nat.lt_of_le_of_lt (fuelLeft_le h) hf
  have ht : Perc.testRunLoop env v fuel ds S ≠ .error .outOfFuel := by
    rcases testRunLoop_ends (ds := ds) fuel h.good hlt with ⟨S', g⟩ | g | ⟨_, g⟩ <;> (rw [g]; simp)
  have t1 : step env v S (.testRunOnce fuel ds) ≠ .error .outOfFuel := by
    show S.testRunOnce env v fuel ds ≠ _
    simp only [Perc.testRunOnce]
    cases hr : Perc.testRunLoop env v fuel ds S with
    | error e => rw [hr] at ht; exact fun h => ht (congrArg Except.error (Except.error.inj h))
    | ok S1 => exact fun h => (by cases h)
  have t2 : ∀ more, step env v S (.testRunOnce (fuel + more) ds) = step env v S (.testRunOnce fuel ds) := fun more => by
    show S.testRunOnce env v (fuel + more) ds = S.testRunOnce env v fuel ds
    simp only [Perc.testRunOnce, testRunLoop_stable fuel ht more]
  by_cases hv : v = .sp
  · subst hv
    have hs : Perc.spLoop env fuel S ≠ .error .outOfFuel := by
      rcases spLoop_ends fuel h.good hlt with ⟨r, g⟩ | g <;> (rw [g]; simp)
    refine ⟨?_, t1, fun more => ⟨?_, t2 more⟩⟩
    · show S.spRunOnce env fuel ≠ _
      simp only [Perc.spRunOnce]
      cases hr : Perc.spLoop env fuel S with
      | error e => rw [hr] at hs; exact fun h => hs (congrArg Except.error (Except.error.inj h))
      | ok S1 => exact fun h => (by cases h)
    · show S.spRunOnce env (fuel + more) = S.spRunOnce env fuel
      simp only [Perc.spRunOnce, spLoop_stable fuel hs more]
  · have hs : Perc.runLoop env v fuel ds S ≠ .error .outOfFuel := by
      rcases runLoop_ends (ds := ds) fuel h.good hlt with ⟨S', g⟩ | g
      · rw [g]; simp
      · rw [g]; split <;> simp
    simp only [step_run hv]
    refine ⟨fun g => hs (runOnce_eq.1.1 g), t1, fun more => ⟨?_, t2 more⟩⟩
    simp only [Perc.runOnce, runLoop_stable fuel hs more]

/-- C79: `run_once()` of L0 returns normally exactly if the remaining entries of the list are distinct and unoccupied; otherwise it raises
AssertionError. -/
theorem C79_l0 (h : Reach env .l0 L S) (ds : Nat → Draw) {fuel : Nat} (hf : S.siteIds.length - S.currentIdx < fuel) :
    ((∃ S', step env .l0 S (.runOnce fuel ds) = .ok S') ↔
      (S.siteIds.drop S.currentIdx).Nodup ∧ ∀ k ∈ S.siteIds.drop S.currentIdx, ¬ S.Occ k) ∧
    (step env .l0 S (.runOnce fuel ds) = .error .assertionError ↔
      ¬ ((S.siteIds.drop S.currentIdx).Nodup ∧ ∀ k ∈ S.siteIds.drop S.currentIdx, ¬ S.Occ k)) := by
  have hlt : S.fuelLeft L .l0 < fuel := by
    unfold Perc.fuelLeft; rw [if_pos (show Variant.l0.plain = true from rfl), ← h.sized rfl]; exact hf
  have h1 := runLoop_plain_iff (env := env) (v := .l0) rfl fuel (ds := ds) h.good hlt
  rw [step_run (by simp), runOnce_eq.1, ← h1, (runOnce_eq (e := .assertionError)).2]
  refine ⟨Iff.rfl, ?_⟩
  rcases runLoop_ends (ds := ds) fuel h.good hlt with ⟨S', g⟩ | g
  · rw [g]; exact ⟨fun h => (by cases h), fun h => absurd ⟨_, rfl⟩ h⟩
  · rw [g]; exact ⟨fun _ ⟨_, h⟩ => (by cases h), fun _ => rfl⟩

/-- C79: `run_once()` of L1 and L2 raises ValueError exactly if the list of candidates has fewer than `L²` entries and fewer than `L²` have
been used up; whatever is drawn.  Otherwise it returns normally. -/
theorem C79_l1l2 (h : Reach env v L S) (hv : v.plain = false) (ds : Nat → Draw) {fuel : Nat} (hf : L * L + 4 * S.siteIds.length < fuel) :
    (step env v S (.runOnce fuel ds) = .error .valueError ↔ S.siteIds.length < L * L ∧ S.currentIdx < L * L) ∧
    ((∃ S', step env v S (.runOnce fuel ds) = .ok S') ↔ ¬ (S.siteIds.length < L * L ∧ S.currentIdx < L * L)) := by
  have hlt : S.fuelLeft L v < fuel := Nat.lt_of_le_of_lt (fuelLeft_le h) hf
  have hns : v ≠ .sp := by rintro rfl; cases hv
  rw [step_run hns, runOnce_eq.1, (runOnce_eq (e := .valueError)).2]
  rcases runLoop_ends (ds := ds) fuel h.good hlt with ⟨S', g⟩ | g
  · obtain ⟨B, hB⟩ := runLoop_exhausted h.sim.1 hv fuel (Between.refl h.good) g
    have hno : ¬ (S.siteIds.length < L * L ∧ S.currentIdx < L * L) := by
      rintro ⟨h1, h2⟩
      have := B.len
      rcases B.cur with hc | hc <;> omega
    rw [g]
    exact ⟨⟨fun h => (by cases h), fun h => absurd h hno⟩, ⟨fun _ => hno, fun _ => ⟨_, rfl⟩⟩⟩
  · rw [hv] at g
    replace g : Perc.runLoop env v fuel ds S = .error .valueError := g
    obtain ⟨B, hB1, hB2⟩ := runLoop_starved h.sim.1 hv fuel (Between.refl h.good) g (by simp)
    have hyes : S.siteIds.length < L * L ∧ S.currentIdx < L * L := by
      have h1 := B.len
      have h2 := B.mono
      exact ⟨by omega, by omega⟩
    rw [g]
    exact ⟨⟨fun _ => hyes, fun _ => rfl⟩, ⟨fun ⟨_, h⟩ => (by cases h), fun h => absurd hyes h⟩⟩

/-- C79: when `run_once()` of L1 or L2 is over, normally or by the exception, every candidate is occupied that was in the list (from
the current position on) - provided the list had at most `L²` entries or the run raised - and every newly occupied site is a candidate, a neighbour
of one, or in L2 the next site straight on. -/
theorem C79_placed (h : Reach env v L S) (hv : v.plain = false) {ds : Nat → Draw} {fuel : Nat}
    (hS : tryOps env v [.runOnce fuel ds] S = some S') :
    (S.siteIds.length ≤ L * L → ∀ x ∈ S.siteIds.drop S.currentIdx, S'.Occ x) ∧ (∀ s, S.Occ s → S'.Occ s) ∧
    ∀ s, S'.Occ s → S.Occ s ∨ ∃ x ∈ S.siteIds.drop S.currentIdx, s = x ∨ ∃ dir, s = nbr L x dir ∨ v = .l2 ∧ s = nbr L (nbr L x dir) dir := by
  have hns : v ≠ .sp := by rintro rfl; cases hv
  have key : ∀ T : Perc α, Between env v L S T → (S.siteIds.length ≤ L * L → T.siteIds.length ≤ T.currentIdx) →
      (S.siteIds.length ≤ L * L → ∀ x ∈ S.siteIds.drop S.currentIdx, T.Occ x) ∧ (∀ s, S.Occ s → T.Occ s) ∧
      ∀ s, T.Occ s → S.Occ s ∨ ∃ x ∈ S.siteIds.drop S.currentIdx, s = x ∨ ∃ dir, s = nbr L x dir ∨ v = .l2 ∧ s = nbr L (nbr L x dir) dir := by
    intro T B hT
    refine ⟨fun hl x hx => (B.cover x hx).resolve_left fun hm => ?_, B.keep, B.near⟩
    unfold Perc.pool' at hm
    rw [List.drop_eq_nil_of_le (hT hl)] at hm
    simp at hm
  simp only [tryOps] at hS
  cases hs : step env v S (.runOnce fuel ds) with
  | ok T =>
    rw [hs] at hS
    obtain rfl : T = S' := Option.some.inj hS
    rw [step_run hns] at hs
    simp only [Perc.runOnce] at hs
    cases hr : Perc.runLoop env v fuel ds S with
    | error e => rw [hr] at hs; cases hs
    | ok S1 =>
      rw [hr] at hs
      obtain ⟨B, hB⟩ := runLoop_exhausted h.sim.1 hv fuel (Between.refl h.good) hr
      replace hs : Except.ok { S1 with firstRun := false } = _ := hs
      rw [← Except.ok.inj hs]
      have := B.len
      exact key { S1 with firstRun := false }
        (B.congr (by obtain ⟨A, M, hA⟩ := B.good.sim; exact ⟨⟨A, M.aux rfl rfl rfl rfl rfl rfl rfl rfl rfl rfl rfl rfl rfl rfl, hA⟩, B.good.lt, B.good.rev, B.good.cnt, B.good.sized⟩) rfl rfl fun _ => Iff.rfl)
        (fun _ => (by show S1.siteIds.length ≤ S1.currentIdx; omega))
  | error e =>
    rw [hs] at hS
    replace hS : (if e = .outOfFuel then none else some (stepRaised env v S (.runOnce fuel ds))) = some S' := hS
    split at hS
    · cases hS
    · next he =>
      have es : stepRaised env v S (.runOnce fuel ds) = S.runRaised env v fuel ds := by
        cases v with
        | l0 => cases hv
        | sp => cases hv
        | l1 => rfl
        | l2 => rfl
      rw [← Option.some.inj hS, es]
      rw [step_run hns] at hs
      obtain ⟨B, hB, _⟩ := runLoop_starved h.sim.1 hv fuel (Between.refl h.good) (runOnce_eq.1.1 hs) he
      exact key _ B fun _ => hB

/-! ### Examples -/

/-- `C79_l1l2`, both cases: L2 with one candidate raises; L2 with more than `L²` entries (all the same site) returns. -/
example : (∃ S, Reach demoEnv .l2 5 S ∧ S.siteIds = [12] ∧ S.currentIdx = 0 ∧
      ∃ S', tryOps demoEnv .l2 [.runOnce 30 fun i => ⟨0, i⟩] S = some S' ∧ S'.occupiedCount = 9) ∧
    ∃ S, Reach demoEnv .l2 2 S ∧ S.siteIds = [1, 1, 1, 1, 1] ∧ ∃ S', step demoEnv .l2 S (.runOnce 25 fun i => ⟨0, i⟩) = .ok S' ∧ S'.currentIdx = 4 := by
  constructor
  · obtain ⟨S, h, hp⟩ := checkTry_reach (env := demoEnv) (v := .l2) (L := 5) (ops := [.setIds [12] false fun i => i])
      (p := fun S => S.siteIds == [12] && (S.currentIdx == 0 && (match tryOps demoEnv .l2 [.runOnce 30 fun i => ⟨0, i⟩] S with
        | some S' => S'.occupiedCount == 9 | none => false))) (by decide +kernel)
    simp only [Bool.and_eq_true, beq_iff_eq] at hp
    obtain ⟨h1, h2, h3⟩ := hp
    split at h3
    · next S' hs => exact ⟨S, h, h1, h2, S', hs, by simpa using h3⟩
    · cases h3
  · obtain ⟨S, h, hp⟩ := checkTry_reach (env := demoEnv) (v := .l2) (L := 2) (ops := [.setIds [1, 1, 1, 1, 1] false fun i => i])
      (p := fun S => S.siteIds == [1, 1, 1, 1, 1] && (match step demoEnv .l2 S (.runOnce 25 fun i => ⟨0, i⟩) with
        | .ok S' => S'.currentIdx == 4 | .error _ => false)) (by decide +kernel)
    simp only [Bool.and_eq_true, beq_iff_eq] at hp
    obtain ⟨h1, h3⟩ := hp
    split at h3
    · next S' hs => exact ⟨S, h, h1, S', hs, by simpa using h3⟩
    · cases h3

/-- `C79_l0`: a list that repeats a site. -/
example : ∃ S, Reach demoEnv .l0 3 S ∧ S.siteIds = [0, 4, 0] ∧ step demoEnv .l0 S (.runOnce 4 fun _ => ⟨0, 0⟩) = .error .assertionError := by
  obtain ⟨S, h, hp⟩ := checkTry_reach (env := demoEnv) (v := .l0) (L := 3) (ops := [.setIds [0, 4, 0] false fun i => i])
    (p := fun S => S.siteIds == [0, 4, 0] && isErr (step demoEnv .l0 S (.runOnce 4 fun _ => ⟨0, 0⟩)) .assertionError) (by decide +kernel)
  simp only [Bool.and_eq_true, beq_iff_eq, isErr_iff] at hp
  exact ⟨S, h, hp⟩

end SqPerc
