import Verif.Proof.Progress
/-
How often gids are rewritten: the cluster of a rewritten element at least doubles, except when it is absorbed by the wrapping cluster.
-/
namespace SqPerc

variable {α : Type} {env : Env α} {L : Nat}

/-- `n`, plus one where `f` and `f'` differ. -/
def bump {β : Type} [DecidableEq β] (f f' : Nat → β) (n : Nat → Nat) : Nat → Nat := fun i => if f' i = f i then n i else n i + 1

/-- The number of bonds of a cluster, doubled for the wrapping cluster. -/
def Abs.weight (A : Abs α) (g : Int) : Nat := (if A.aw = true ∧ g = A.wid then 2 else 1) * (A.P.cb g).length

/-- `n` counts changes of bond gids, `m` of site gids. -/
structure WorkInv (L : Nat) (A : Abs α) (n m : Nat → Nat) : Prop where
  bond : ∀ b < 2 * (L * L), 2 ^ n b ≤ A.weight (A.V.bg b)
  free : ∀ s < L * L, A.V.sg s = -1 → m s = 0
  site : ∀ s < L * L, A.V.sg s ≠ -1 → 2 ^ m s ≤ 2 * A.weight (A.V.sg s)

theorem WorkInv.mono {A : Abs α} {n m n' m' : Nat → Nat} (h : WorkInv L A n m) (hn : ∀ b, n' b ≤ n b) (hm : ∀ s, m' s ≤ m s) :
    WorkInv L A n' m' :=
  ⟨fun b hb => (Nat.pow_le_pow_right (by omega) (hn b)).trans (h.bond b hb),
    fun s hs h0 => by have := hm s; rw [h.free s hs h0] at this; omega,
    fun s hs h0 => (Nat.pow_le_pow_right (by omega) (hm s)).trans (h.site s hs h0)⟩

theorem Abs.weight_le {A : Abs α} (C : Core L A.V A.P) {g : Int} (h0 : 0 ≤ g) (h1 : g < (2 * (L * L) : Nat)) : A.weight g ≤ 4 * (L * L) := by
  have hlen : (A.P.cb g).length ≤ 2 * (L * L) := by
    have := (List.Nodup.subperm (C.ndb g h0 h1) (l₂ := List.range (2 * (L * L)))
      (fun b hb => List.mem_range.2 ((C.memb g h0 h1 b).1 hb).1)).length_le
    rwa [List.length_range] at this
  rw [Abs.weight]
  split <;> omega

theorem WorkInv.init (sel : Option Nat) : WorkInv L (Abs.init env L sel) (fun _ => 0) (fun _ => 0) := by
  refine ⟨fun b hb => ?_, fun s _ _ => rfl, fun s hs h => absurd rfl h⟩
  have C := (AReach.init (env := env) (sel := none) (L := L) (by simp)).inv.core
  have hb' : b ∈ (Abs.init env L sel).P.cb ((Abs.init env L sel).V.bg b) := (C.memb _ (C.bgr b hb).1 (C.bgr b hb).2 b).2 ⟨hb, rfl⟩
  have := List.length_pos_of_mem hb'
  rw [Abs.weight, if_neg (by rintro ⟨h, _⟩; cases h)]
  rw [Nat.one_mul]; exact this

theorem WorkInv.step {A A' : Abs α} {n m : Nat → Nat} (I : AInv L A) (W : WorkInv L A n m) (h : AStep env L A A') :
    WorkInv L A' (bump A.V.bg A'.V.bg n) (bump A.V.sg A'.V.sg m) := by
  have C := I.core
  cases h with
  | @place k r V' P' hk h0 E R =>
    obtain ⟨l, hl1, hl2, hl3⟩ := E.cbRoot
    -- a cluster that survives
    have w1 : ∀ g, ¬ Adj L A.V k g ∨ g = r → A.weight g ≤ (A.placed env L k r V' P').weight g := by
      intro g hg
      refine Nat.mul_le_mul_left _ ?_
      show (A.P.cb g).length ≤ (P'.cb g).length
      by_cases e : g = r
      · rw [e, hl3, List.length_append]; omega
      · rw [E.cbKept g (hg.resolve_right e)]
    -- a cluster that is absorbed
    have w2 : ∀ g, Adj L A.V k g → g ≠ r → 2 * A.weight g ≤ (A.placed env L k r V' P').weight r := by
      intro g hg hne
      have hsum : (A.P.cb r).length + (A.P.cb g).length ≤ (P'.cb r).length := by
        rw [hl3, List.length_append]
        have := (List.sublist_flatten_of_mem (List.mem_map.2 ⟨g, (hl2 g).2 ⟨hg, hne⟩, rfl⟩ : A.P.cb g ∈ l.map A.P.cb)).length_le
        rw [← List.flatMap_def] at this
        omega
      by_cases hw : A.aw = true ∧ Adj L A.V k A.wid
      · have hr := R.1 hw.1 hw.2
        have e1 : A.weight g = (A.P.cb g).length := by
          rw [Abs.weight, if_neg (by rintro ⟨_, h⟩; exact hne (h.trans hr.symm)), Nat.one_mul]
        have e2 : (A.placed env L k r V' P').weight r = 2 * (P'.cb r).length := by
          rw [Abs.weight, if_pos ⟨hw.1, hr⟩]; rfl
        omega
      · have hr := R.2 hw g hg
        have e1 : A.weight g = (A.P.cb g).length := by
          rw [Abs.weight, if_neg (by rintro ⟨h1, h2⟩; exact hw ⟨h1, h2 ▸ hg⟩), Nat.one_mul]
        have e2 : (P'.cb r).length ≤ (A.placed env L k r V' P').weight r := by
          rw [Abs.weight]; exact Nat.le_mul_of_pos_left _ (by split <;> omega)
        omega
    -- both together
    have w : ∀ (g g' : Int) (x c : Nat), (Adj L A.V k g → g' = r) → (¬ Adj L A.V k g → g' = g) → 2 ^ x ≤ c * A.weight g →
        2 ^ (if g' = g then x else x + 1) ≤ c * (A.placed env L k r V' P').weight g' := by
      intro g g' x c h1 h2 h3
      by_cases hadj : Adj L A.V k g
      · rw [h1 hadj]
        by_cases e : r = g
        · rw [if_pos e, e]
          rw [← e]
          rw [← e] at h3
          exact h3.trans (Nat.mul_le_mul_left _ (w1 r (.inr rfl)))
        · rw [if_neg e, pow_succ]
          have := Nat.mul_le_mul_left c (w2 g hadj (Ne.symm e))
          calc 2 ^ x * 2 ≤ c * A.weight g * 2 := Nat.mul_le_mul_right 2 h3
            _ = c * (2 * A.weight g) := by ring
            _ ≤ _ := this
      · rw [h2 hadj, if_pos rfl]
        exact h3.trans (Nat.mul_le_mul_left _ (w1 g (.inl hadj)))
    have hnot : ∀ s, A.V.sg s = -1 → ¬ Adj L A.V k (A.V.sg s) := by
      rintro s hs ⟨d, hd⟩
      rw [hs] at hd
      have := (C.bgr (bondAt L k d) (bondAt_lt hk d)).1
      omega
    have hrr : r ≠ -1 := by
      obtain ⟨d, hd⟩ := E.adj
      have := (C.bgr (bondAt L k d) (bondAt_lt hk d)).1
      omega
    refine ⟨fun b hb => ?_, fun s hs h => ?_, fun s hs h => ?_⟩
    · have := w (A.V.bg b) (V'.bg b) (n b) 1 (E.bgAdj b hb) (E.bgFar b hb) (by rw [Nat.one_mul]; exact W.bond b hb)
      rw [Nat.one_mul] at this
      exact this
    · replace h : V'.sg s = -1 := h
      by_cases hsk : s = k
      · rw [hsk, E.sgSelf] at h; exact absurd h hrr
      have hs' : A.V.sg s = -1 := by
        by_cases hadj : Adj L A.V k (A.V.sg s)
        · rw [E.sgAdj s hs hadj] at h; exact absurd h hrr
        · rw [E.sgFar s hs hsk hadj] at h; exact h
      show (if V'.sg s = A.V.sg s then m s else m s + 1) = 0
      rw [if_pos (h.trans hs'.symm)]
      exact W.free s hs hs'
    · replace h : V'.sg s ≠ -1 := h
      show 2 ^ (if V'.sg s = A.V.sg s then m s else m s + 1) ≤ 2 * (A.placed env L k r V' P').weight (V'.sg s)
      by_cases hsk : s = k
      · rw [hsk, E.sgSelf, if_neg (by rw [h0]; exact hrr), W.free k hk h0]
        have hpos : 0 < (P'.cb r).length := by
          obtain ⟨d, hd⟩ := E.adj
          have hb := bondAt_lt hk d
          have hmem : bondAt L k d ∈ A.P.cb r := (C.memb r (hd ▸ (C.bgr _ hb).1) (hd ▸ (C.bgr _ hb).2) _).2 ⟨hb, hd⟩
          rw [hl3, List.length_append]
          have := List.length_pos_of_mem hmem
          omega
        have e2 : (P'.cb r).length ≤ (A.placed env L k r V' P').weight r := by
          rw [Abs.weight]; exact Nat.le_mul_of_pos_left _ (by split <;> omega)
        simp only [Nat.zero_add, pow_one]
        omega
      · have hocc : A.V.sg s ≠ -1 := fun h' => h ((E.sgFar s hs hsk (hnot s h')).trans h')
        exact w (A.V.sg s) (V'.sg s) (m s) 2 (E.sgAdj s hs) (E.sgFar s hs hsk) (W.site s hs hocc)
  | @tick V' hV =>
    refine WorkInv.mono (n := n) (m := m) ⟨?_, ?_, ?_⟩ (fun b => ?_) (fun s => ?_)
    · show ∀ b < 2 * (L * L), 2 ^ n b ≤ A.weight (V'.bg b)
      rw [hV.2.2]; exact W.bond
    · show ∀ s < L * L, V'.sg s = -1 → m s = 0
      rw [hV.1]; exact W.free
    · show ∀ s < L * L, V'.sg s ≠ -1 → 2 ^ m s ≤ 2 * A.weight (V'.sg s)
      rw [hV.1]; exact W.site
    · show (if V'.bg b = A.V.bg b then n b else n b + 1) ≤ n b
      rw [hV.2.2, if_pos rfl]
    · show (if V'.sg s = A.V.sg s then m s else m s + 1) ≤ m s
      rw [hV.1, if_pos rfl]
  | @detect k ha hs h0 hH =>
    have hle : ∀ g, A.weight g ≤ (A.detected k).weight g := by
      intro g
      rw [Abs.weight, Abs.weight, if_neg (by rintro ⟨h, _⟩; rw [ha] at h; cases h)]
      exact Nat.mul_le_mul_right _ (by split <;> omega)
    refine WorkInv.mono (n := n) (m := m) ⟨fun b hb => (W.bond b hb).trans (hle _), W.free, fun s hs' h =>
      (W.site s hs' h).trans (Nat.mul_le_mul_left _ (hle _))⟩ (fun b => ?_) (fun s => ?_)
    · show (if A.V.bg b = A.V.bg b then n b else n b + 1) ≤ n b
      rw [if_pos rfl]
    · show (if A.V.sg s = A.V.sg s then m s else m s + 1) ≤ m s
      rw [if_pos rfl]
  | @reselect k hk h0 =>
    refine WorkInv.mono (n := n) (m := m) ⟨W.bond, W.free, W.site⟩ (fun b => ?_) (fun s => ?_)
    · show (if A.V.bg b = A.V.bg b then n b else n b + 1) ≤ n b
      rw [if_pos rfl]
    · show (if A.V.sg s = A.V.sg s then m s else m s + 1) ≤ m s
      rw [if_pos rfl]

theorem bump_trans {β : Type} [DecidableEq β] {f f' f'' : Nat → β} {n n' : Nat → Nat} (h : ∀ i, bump f f' n i ≤ n' i) (i : Nat) :
    bump f f'' n i ≤ bump f' f'' n' i := by
  have := h i
  unfold bump at this ⊢
  by_cases h1 : f' i = f i
  · rw [if_pos h1] at this
    rw [h1]
    split <;> omega
  · rw [if_neg h1] at this
    split <;> split <;> omega

theorem WorkInv.steps {A A' : Abs α} {n m : Nat → Nat} (I : AInv L A) (W : WorkInv L A n m) (h : ASteps env L A A') :
    WorkInv L A' (bump A.V.bg A'.V.bg n) (bump A.V.sg A'.V.sg m) := by
  have key : AInv L A' ∧ ∃ n' m', WorkInv L A' n' m' ∧ (∀ b, bump A.V.bg A'.V.bg n b ≤ n' b) ∧ ∀ s, bump A.V.sg A'.V.sg m s ≤ m' s := by
    induction h with
    | refl => exact ⟨I, n, m, W, fun b => by rw [bump, if_pos rfl], fun s => by rw [bump, if_pos rfl]⟩
    | tail _ hs ih =>
      obtain ⟨I1, n', m', W1, h1, h2⟩ := ih
      exact ⟨I1.step hs, _, _, W1.step I1 hs, bump_trans h1, bump_trans h2⟩
  obtain ⟨_, n', m', W', h1, h2⟩ := key
  exact W'.mono h1 h2

end SqPerc
