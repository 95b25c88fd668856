import Verif.Proof.TwisterEval
import Verif.Props.WordLaw
import Verif.Proof.Observe
/-
Evaluation: the answers of the seeded generator, and where a sequence of sites first wraps.
-/
namespace SqPerc

variable {β : Type} {L : Nat}

/-! ### Answers of the generator -/

/-- What a word gives for the request `n`, as in `tryBelow`. -/
def tryN (n w : Nat) : Option Nat := MT.force (w / 2 ^ (32 - (Nat.log2 n + 1))) fun r => bif Nat.blt r n then some r else none

theorem tryN_eq (n : Nat) (w : Word) : tryN n w.1 = tryBelow n w := by
  have hs : n ≠ 0 → n.size = Nat.log2 n + 1 := by
    intro hn
    apply le_antisymm
    · exact Nat.size_le.2 Nat.lt_log2_self
    · exact Nat.lt_size.2 (Nat.log2_self_le hn)
  rw [tryN, MT.force_eq, tryBelow, getBits]
  have hb : ∀ r m : Nat, ¬ r < m → Nat.blt r m = false := fun r m h => Bool.eq_false_iff.2 fun hh => h (Nat.blt_eq ▸ hh)
  by_cases hn : n = 0
  · subst hn
    rw [hb _ _ (Nat.not_lt_zero _), if_neg (Nat.not_lt_zero _)]
    rfl
  · rw [← hs hn]
    by_cases h : w.1 / 2 ^ (32 - n.size) < n
    · rw [if_pos h, show Nat.blt (w.1 / 2 ^ (32 - n.size)) n = true by simpa using h]
      rfl
    · rw [if_neg h, hb _ _ h]
      rfl

namespace Ask

/-- `exec` on words given as numbers. -/
def execN : List Nat → Ask β → Option β
  | _, ret b => some b
  | [], ask _ _ => none
  | w :: ws, ask n k => match tryN n w with
    | some r => execN ws (k r)
    | none => execN ws (ask n k)

theorem exec_eq : ∀ (ws : List Word) (p : Ask β), exec ws p = execN (ws.map Fin.val) p
  | [], .ret _ => rfl
  | _ :: _, .ret _ => rfl
  | [], .ask _ _ => rfl
  | w :: ws, .ask n k => by
    rw [List.map_cons, exec, execN, tryN_eq]
    cases tryBelow n w with
    | none => exact exec_eq ws _
    | some r => exact exec_eq ws _

/-- The result of a computation after `random.seed(key)`. -/
theorem run_seed {key : Nat} (hk : key < 2 ^ 32) {p : Ask β} {b : β} (m : Nat) (h : execN (MT.wordsN key m) p = some b) :
    (p.run pyRng (pyRng.seed key)).1 = b := by
  refine run_of_exec _ m ?_
  rw [exec_eq, ← h, MT.wordsN_eq hk]
  congr 1
  refine List.ext_getElem (by simp) fun i _ _ => ?_
  simp

end Ask

/-! ### Wrapping -/

/-- The neighbours of the entries that are occupied and not yet listed. -/
def addNext (L : Nat) (q : List Nat) (e : Nat × Int × Int) (es : List (Nat × Int × Int)) : List (Nat × Int × Int) :=
  Dir.all.foldl (fun es d => if nbr L e.1 d ∈ q ∧ nbr L e.1 d ∉ es.map Prod.fst then es ++ [(nbr L e.1 d, e.2 + d.vec)] else es) es

/-- The sites reached from the entries, with the displacement on the way; entry `i` is the next to be looked at. -/
def explore (L : Nat) (q : List Nat) : Nat → Nat → List (Nat × Int × Int) → List (Nat × Int × Int)
  | 0, _, es => es
  | n + 1, i, es => match es[i]? with
    | none => es
    | some e => explore L q n (i + 1) (addNext L q e es)

/-- Sites reached from `s`. -/
def cluster (L : Nat) (q : List Nat) (s : Nat) : List (Nat × Int × Int) := explore L q q.length 0 [(s, 0)]

theorem addNext_walk {q : List Nat} {s : Nat} {e : Nat × Int × Int} {es : List (Nat × Int × Int)} (he : Walk L (· ∈ q) s e.1 e.2)
    (h : ∀ e ∈ es, Walk L (· ∈ q) s e.1 e.2) : ∀ e' ∈ addNext L q e es, Walk L (· ∈ q) s e'.1 e'.2 := by
  unfold addNext
  generalize Dir.all = ds
  induction ds generalizing es with
  | nil => exact h
  | cons d ds ih =>
    rw [List.foldl_cons]
    refine ih fun e' h' => ?_
    by_cases hd : nbr L e.1 d ∈ q ∧ nbr L e.1 d ∉ es.map Prod.fst
    · rw [if_pos hd, List.mem_append, List.mem_singleton] at h'
      rcases h' with h' | rfl
      · exact h e' h'
      · exact .snoc d he hd.1
    · rw [if_neg hd] at h'
      exact h e' h'

theorem explore_walk {q : List Nat} {s : Nat} (n i : Nat) {es : List (Nat × Int × Int)} (h : ∀ e ∈ es, Walk L (· ∈ q) s e.1 e.2) :
    ∀ e' ∈ explore L q n i es, Walk L (· ∈ q) s e'.1 e'.2 := by
  induction n generalizing i es with
  | zero => exact h
  | succ n ih =>
    rw [explore]
    cases hi : es[i]? with
    | none => exact h
    | some e => exact ih _ (addNext_walk (h e (List.mem_of_getElem? hi)) h)

theorem cluster_walk {q : List Nat} {s : Nat} (hs : s ∈ q) : ∀ e ∈ cluster L q s, Walk L (· ∈ q) s e.1 e.2 :=
  explore_walk _ _ fun e he => by
    rw [List.mem_singleton] at he
    subst he
    exact .nil hs

/-- A loop around the torus is found through `s`. -/
def foundAt (L : Nat) (q : List Nat) (s : Nat) : Bool :=
  (cluster L q s).any fun e => Dir.all.any fun d => decide (nbr L e.1 d ∈ q) && (cluster L q s).any fun f => decide (f.1 = nbr L e.1 d ∧ f.2 ≠ e.2 + d.vec)

theorem foundAt_wraps {q : List Nat} (hq : ∀ s ∈ q, s < L * L) {s : Nat} (hs : s ∈ q) (h : foundAt L q s = true) : WrapsAt L (· ∈ q) s := by
  simp only [foundAt, List.any_eq_true, Bool.and_eq_true, decide_eq_true_eq] at h
  obtain ⟨e, he, d, _, hn, f, hf, h1, h2⟩ := h
  have we := Walk.snoc d (cluster_walk hs e he) hn
  have wf := cluster_walk hs f hf
  rw [h1] at wf
  exact ⟨_, fun h0 => h2 (by rw [← sub_eq_add_neg] at h0; exact (sub_eq_zero.1 h0).symm), we.append (wf.reverse hq)⟩

/-- A drawing in the plane: all clusters, each from its own origin. -/
def drawing (L : Nat) (q : List Nat) : List (Nat × Int × Int) :=
  q.foldl (fun es s => if s ∈ es.map Prod.fst then es else es ++ cluster L q s) []

/-- The place of a site in a drawing. -/
def placeOf (es : List (Nat × Int × Int)) (s : Nat) : Int × Int := ((es.find? fun e => e.1 == s).map Prod.snd).getD 0

/-- Neighbours are drawn next to each other. -/
def drawn (L : Nat) (q : List Nat) : Bool :=
  MT.force q.length fun _ => (fun es => q.all fun s => Dir.all.all fun d => decide (nbr L s d ∉ q ∨ placeOf es (nbr L s d) - placeOf es s = d.vec)) (drawing L q)

theorem drawn_flat {q : List Nat} (h : drawn L q = true) : ¬ Wraps L (· ∈ q) := by
  rw [drawn, MT.force_eq] at h
  simp only [List.all_eq_true, decide_eq_true_eq] at h
  rintro ⟨s, v, hv, w⟩
  have := w.eq_potential (placeOf (drawing L q)) fun t d ht hn => by
    refine (h t ht d ?_).resolve_left (not_not.2 hn)
    cases d <;> simp [Dir.all]
  rw [sub_self] at this
  exact hv this

/-- The configuration wraps for the first time with the `n`-th site of the sequence. -/
def wrapsFirst (L : Nat) (q : List Nat) (n : Nat) : Bool :=
  match q.drop (n - 1) with
  | [] => false
  | k :: _ => decide (0 < n) && q.all (fun s => decide (s < L * L)) && drawn L (q.take (n - 1)) && foundAt L (q.take n) k

theorem wrapsFirst_spec {q : List Nat} {n : Nat} (h : wrapsFirst L q n = true) : ∃ k post, 0 < n ∧ q = q.take (n - 1) ++ k :: post ∧
    q.take n = q.take (n - 1) ++ [k] ∧ ¬ Wraps L (· ∈ q.take (n - 1)) ∧ WrapsAt L (· ∈ q.take n) k ∧ (q.take (n - 1)).length + 1 = n ∧
    firstWrap L [] q = some (q.take (n - 1), k) := by
  rw [wrapsFirst] at h
  cases hd : q.drop (n - 1) with
  | nil => rw [hd] at h; cases h
  | cons k post =>
    rw [hd] at h
    simp only [Bool.and_eq_true, decide_eq_true_eq, List.all_eq_true] at h
    obtain ⟨⟨⟨h0, h1⟩, h2⟩, h3⟩ := h
    have e1 : q = q.take (n - 1) ++ k :: post := by rw [← hd, List.take_append_drop]
    have hlen : n - 1 < q.length := by
      by_contra hc
      rw [List.drop_eq_nil_of_le (by omega)] at hd
      cases hd
    have hl : (q.take (n - 1)).length = n - 1 := by rw [List.length_take]; omega
    have e2 : q.take n = q.take (n - 1) ++ [k] := by
      conv_lhs => rw [e1]
      rw [List.take_append, hl, List.take_of_length_le (by omega), show n - (n - 1) = 1 by omega]
      rfl
    have f := drawn_flat h2
    have w := foundAt_wraps (fun s hs => h1 s (List.mem_of_mem_take hs)) (by rw [e2]; simp) h3
    refine ⟨k, post, h0, e1, e2, f, w, by omega, ?_⟩
    have := firstWrap_of (L := L) (pre0 := []) (pre := q.take (n - 1)) (k := k) (post := post) (by simpa using f) (by
      obtain ⟨v, hv, hw⟩ := w
      rw [e2] at hw
      exact ⟨k, v, hv, by simpa using hw⟩)
    rw [← e1] at this
    simpa using this

/-! ### Sizes of clusters -/

/-- The sites of the cluster of `s`. -/
def clusterSites (L : Nat) (q : List Nat) (s : Nat) : List Nat := (cluster L q s).map Prod.fst

/-- The bonds of the cluster of `s`. -/
def clusterBonds (L : Nat) (q : List Nat) (s : Nat) : List Nat := (clusterSites L q s).flatMap fun t => Dir.all.map (bondAt L t)

/-- The search from `s` has reached the whole cluster. -/
def whole (L : Nat) (q : List Nat) (s : Nat) : Bool :=
  decide (s ∈ q) && q.all (fun t => decide (t < L * L)) && decide (s ∈ clusterSites L q s) &&
    (clusterSites L q s).all fun t => Dir.all.all fun d => !decide (nbr L t d ∈ q) || decide (nbr L t d ∈ clusterSites L q s)

theorem mem_dir_all (d : Dir) : d ∈ Dir.all := by cases d <;> decide

theorem whole_sites {q : List Nat} {s : Nat} (h : whole L q s = true) : siteComp L (· ∈ q) s = (clusterSites L q s).toFinset := by
  classical
  simp only [whole, Bool.and_eq_true, decide_eq_true_eq, List.all_eq_true, Bool.or_eq_true, Bool.not_eq_true', decide_eq_false_iff_not] at h
  obtain ⟨⟨⟨h1, h2⟩, h3⟩, h4⟩ := h
  ext t
  simp only [siteComp, Finset.mem_filter, Finset.mem_range, List.mem_toFinset]
  constructor
  · rintro ⟨_, _, hc⟩
    clear * - hc h3 h4
    induction hc with
    | refl => exact h3
    | tail _ hst ih =>
      obtain ⟨_, ho, d, rfl⟩ := hst
      exact (h4 _ ih d (mem_dir_all d)).resolve_left (not_not.2 ho)
  · intro ht
    obtain ⟨e, he, rfl⟩ := List.mem_map.1 ht
    have w := cluster_walk h1 e he
    have ho := w.siteConn
    have : e.1 ∈ q := by
      rcases Relation.ReflTransGen.cases_tail ho with h | ⟨_, _, h⟩
      · rw [h]; exact h1
      · exact h.2.1
    exact ⟨h2 _ this, this, ho⟩

theorem whole_bonds {q : List Nat} {s : Nat} (h : whole L q s = true) (d : Dir) :
    bondComp L (· ∈ q) (bondAt L s d) = (clusterBonds L q s).toFinset := by
  classical
  have hsites := whole_sites h
  simp only [whole, Bool.and_eq_true, decide_eq_true_eq, List.all_eq_true] at h
  obtain ⟨⟨⟨h1, h2⟩, h3⟩, _⟩ := h
  have hmem : ∀ t, t ∈ clusterSites L q s ↔ t < L * L ∧ t ∈ q ∧ SiteConn L (· ∈ q) s t := by
    intro t
    rw [← List.mem_toFinset, ← hsites]
    simp only [siteComp, Finset.mem_filter, Finset.mem_range]
  ext b
  simp only [bondComp, Finset.mem_filter, Finset.mem_range, List.mem_toFinset, clusterBonds, List.mem_flatMap, List.mem_map]
  constructor
  · rintro ⟨hlt, hc⟩
    have hex : ∃ t, t ∈ q ∧ Incident L t b := by
      rcases hc.symm.eq_or_occ with h | h
      · exact ⟨s, h1, (incident_iff hlt).2 ⟨h2 s h1, d, h⟩⟩
      · exact h
    obtain ⟨t, ht, hti⟩ := hex
    obtain ⟨htl, d', rfl⟩ := (incident_iff hlt).1 hti
    exact ⟨t, (hmem t).2 ⟨htl, ht, (siteConn_iff h2 h1 ht d d').2 hc⟩, d', mem_dir_all d', rfl⟩
  · rintro ⟨t, ht, d', _, rfl⟩
    obtain ⟨htl, ho, hc⟩ := (hmem t).1 ht
    have := (siteConn_iff h2 h1 ho d d').1 hc
    refine ⟨?_, this⟩
    exact this.lt (bondAt_lt (h2 s h1) d)

end SqPerc
