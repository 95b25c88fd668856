import Verif.Props.ShortestPath
import Verif.Proof.Bounds
import Verif.Props.Lists
/-
C40, for which lengths the stopping rule of `ShortestPathAfter_pc` is the one promised in the header of the file.
-/
namespace SqPerc

variable {α : Type} {L : Nat} {env : Env α} {S S' : Perc α} {q : List Nat} {k : Nat}

/-- The prefix at which a list of sites wraps for the first time. -/
theorem first_wrap : ∀ q : List Nat, Wraps L (· ∈ q) → ∃ pre k post, q = pre ++ k :: post ∧ ¬ Wraps L (· ∈ pre) ∧ Wraps L (· ∈ pre ++ [k]) := by
  intro q
  induction q using List.reverseRecOn with
  | nil => rintro ⟨s, v, _, w⟩; exact absurd w.occ_left (by simp)
  | append_singleton q k ih =>
    intro h
    by_cases hq : Wraps L (· ∈ q)
    · obtain ⟨pre, k', post, rfl, h1, h2⟩ := ih hq
      exact ⟨pre, k', post ++ [k], by simp, h1, h2⟩
    · exact ⟨q, k, [], rfl, hq, h⟩

/-- A walk that may use the additional site `k` does not use it or can be cut there. -/
theorem Walk.cut {s t : Nat} {v : Int × Int} (h : Walk L (· ∈ q ++ [k]) s t v) :
    Walk L (· ∈ q) s t v ∨ ∃ v1 v2, Walk L (· ∈ q ++ [k]) s k v1 ∧ Walk L (· ∈ q ++ [k]) k t v2 ∧ v = v1 + v2 := by
  have one : ∀ s, s ∈ q ++ [k] → s ∈ q ∨ s = k := by intro s hs; simpa using hs
  induction h with
  | nil h =>
    rcases one _ h with h' | h'
    · exact .inl (.nil h')
    · subst h'; exact .inr ⟨0, 0, .nil h, .nil h, by simp⟩
  | @snoc t v d w h ih =>
    rcases ih with ih | ⟨v1, v2, w1, w2, rfl⟩
    · rcases one _ h with h' | h'
      · exact .inl (.snoc d ih h')
      · have w' := Walk.snoc d w h
        rw [h'] at w' ⊢
        exact .inr ⟨v + d.vec, 0, w', .nil w'.occ_right, (add_zero _).symm⟩
    · exact .inr ⟨v1, v2 + d.vec, w1, .snoc d w2 h, by rw [add_assoc]⟩

/-- The site that closes the first loop lies on one. -/
theorem wrapsAt_last (h1 : ¬ Wraps L (· ∈ q)) (h2 : Wraps L (· ∈ q ++ [k])) : WrapsAt L (· ∈ q ++ [k]) k := by
  obtain ⟨s, v, hv, w⟩ := h2
  rcases w.cut with w' | ⟨v1, v2, w1, w2, rfl⟩
  · exact absurd ⟨s, v, hv, w'⟩ h1
  · exact ⟨v2 + v1, by rwa [add_comm], w2.append w1⟩

/-- The wrapping cluster is not empty once the configuration wraps, it wraps, and it is a component. -/
theorem inWrap_root (h : Wraps L (· ∈ q)) : ∃ k ∈ q, WrapsAt L (· ∈ q) k ∧ ∀ s, InWrap L q s ↔ SiteConn L (· ∈ q) k s := by
  obtain ⟨pre, k, post, rfl, h1, h2⟩ := first_wrap q h
  refine ⟨k, by simp, (wrapsAt_last h1 h2).mono (by intro s hs; simp at hs ⊢; tauto), fun s => ⟨?_, fun hc => ⟨pre, k, post, rfl, h1, h2, hc⟩⟩⟩
  rintro ⟨pre', k', post', e, h1', h2', hc⟩
  obtain ⟨_, rfl, _⟩ := first_unique e h1 h2 h1' h2'
  exact hc

theorem SiteConn.mono_mem {q' : List Nat} (h : ∀ s ∈ q, s ∈ q') {s t : Nat} (hc : SiteConn L (· ∈ q) s t) : SiteConn L (· ∈ q') s t := by
  induction hc with
  | refl => exact .refl _
  | tail _ e ih => exact ih.trans (Relation.ReflTransGen.single ⟨h _ e.1, h _ e.2.1, e.2.2⟩)

theorem SiteConn.mem {s t : Nat} (h : SiteConn L (· ∈ q) s t) (hs : s ∈ q) : t ∈ q := by
  rcases Relation.ReflTransGen.cases_tail h with rfl | ⟨_, _, h⟩
  · exact hs
  · exact h.2.1

theorem InWrap.mem {s : Nat} (h : InWrap L q s) : s ∈ q := by
  obtain ⟨pre, k, post, rfl, _, _, hc⟩ := h
  exact hc.mem (by simp)

/-- A neighbour of a site of the wrapping cluster belongs to it if it is occupied. -/
theorem InWrap.nbr {s : Nat} (h : InWrap L q s) (d : Dir) (hn : SqPerc.nbr L s d ∈ q) : InWrap L q (SqPerc.nbr L s d) := by
  have hs := h.mem
  obtain ⟨pre, k, post, e, h1, h2, hc⟩ := h
  exact ⟨pre, k, post, e, h1, h2, hc.trans (.single d hs hn)⟩

/-- One site of a fully occupied row brings the whole row into the wrapping cluster. -/
theorem InWrap.row {r c : Nat} (hc : c < L) (h : InWrap L q (r * L + c)) (hr : ∀ c < L, r * L + c ∈ q) : RowIn L (InWrap L q) r := by
  have key : ∀ n, InWrap L q (r * L + (c + n) % L) := by
    intro n
    induction n with
    | zero => rwa [Nat.add_zero, Nat.mod_eq_of_lt hc]
    | succ n ih =>
      have hlt : (c + n) % L < L := Nat.mod_lt _ (by omega)
      have := ih.nbr .right (by rw [nbr_right_rc hlt]; exact hr _ (Nat.mod_lt _ (by omega)))
      rwa [nbr_right_rc hlt, Nat.mod_add_mod] at this
  intro c' hc'
  have := key (L - c + c')
  rwa [show c + (L - c + c') = c' + L by omega, Nat.add_mod_right, Nat.mod_eq_of_lt hc'] at this

theorem InWrap.col {r c : Nat} (hr : r < L) (hc : c < L) (h : InWrap L q (r * L + c)) (hq : ∀ r < L, r * L + c ∈ q) : ColIn L (InWrap L q) c := by
  have key : ∀ n, InWrap L q ((r + n) % L * L + c) := by
    intro n
    induction n with
    | zero => rwa [Nat.add_zero, Nat.mod_eq_of_lt hr]
    | succ n ih =>
      have := ih.nbr .down (by rw [nbr_down_rc hc]; exact hq _ (Nat.mod_lt _ (by omega)))
      rwa [nbr_down_rc hc, Nat.mod_add_mod] at this
  intro r' hr'
  have := key (L - r + r')
  rwa [show r + (L - r + r') = r' + L by omega, Nat.add_mod_right, Nat.mod_eq_of_lt hr'] at this

/-- For `L ≤ 4` a fully occupied row beside a wrapping configuration: the wrapping cluster contains this row or another complete line. -/
theorem full_row_small (hL : 3 ≤ L) (hL4 : L ≤ 4) (hq : ∀ s ∈ q, s < L * L) {r : Nat} (hr : r < L) (hrow : ∀ c < L, r * L + c ∈ q) :
    AnyStraight L q := by
  have hw : Wraps L (· ∈ q) := (row_wraps (occ := (· ∈ q)) (by omega) hrow).wraps
  obtain ⟨k, hk, hwk, hin⟩ := inWrap_root hw
  refine ⟨⟨hL, hw⟩, ?_⟩
  by_cases hex : ∃ c < L, InWrap L q (r * L + c)
  · obtain ⟨c, hc, h⟩ := hex
    exact .inl ⟨r, hr, h.row hc hrow⟩
  · have hno : ∀ c < L, ¬ InWrap L q (r * L + c) := fun c hc h => hex ⟨c, hc, h⟩
    rcases hwk.spans hq with h | h
    · obtain ⟨c, hc, h, _⟩ := h r hr
      exact absurd ((hin _).2 h) (hno c hc)
    · -- a row with a site of the wrapping cluster is neither `r` nor next to `r`
      have far : ∀ r' < L, ∀ c < L, InWrap L q (r' * L + c) → L = 4 ∧ r' = (r + 2) % L := by
        intro r' hr' c hc hi
        have h0 : r' ≠ r := by rintro rfl; exact hno c hc hi
        have h1 : (r' + 1) % L ≠ r := by
          intro e
          have := hi.nbr .down (by rw [nbr_down_rc hc, e]; exact hrow c hc)
          rw [nbr_down_rc hc, e] at this
          exact hno c hc this
        have h2 : (r' + (L - 1)) % L ≠ r := by
          intro e
          have := hi.nbr .up (by rw [nbr_up_rc hc, e]; exact hrow c hc)
          rw [nbr_up_rc hc, e] at this
          exact hno c hc this
        have : L = 3 ∨ L = 4 := by omega
        rcases this with rfl | rfl <;> omega
      refine .inl ⟨(r + 2) % L, Nat.mod_lt _ (by omega), fun c hc => ?_⟩
      obtain ⟨r', hr', h, _⟩ := h c hc
      have hi := (hin _).2 h
      rw [← (far r' hr' c hc hi).2]
      exact hi

/-- The same for a fully occupied column. -/
theorem full_col_small (hL : 3 ≤ L) (hL4 : L ≤ 4) (hq : ∀ s ∈ q, s < L * L) {c : Nat} (hc : c < L) (hcol : ∀ r < L, r * L + c ∈ q) :
    AnyStraight L q := by
  have hw : Wraps L (· ∈ q) := (col_wraps (occ := (· ∈ q)) (by omega) hc hcol).wraps
  obtain ⟨k, hk, hwk, hin⟩ := inWrap_root hw
  refine ⟨⟨hL, hw⟩, ?_⟩
  by_cases hex : ∃ r < L, InWrap L q (r * L + c)
  · obtain ⟨r, hr, h⟩ := hex
    exact .inr ⟨c, hc, h.col hr hc hcol⟩
  · have hno : ∀ r < L, ¬ InWrap L q (r * L + c) := fun r hr h => hex ⟨r, hr, h⟩
    rcases hwk.spans hq with h | h
    · have far : ∀ c' < L, ∀ r < L, InWrap L q (r * L + c') → L = 4 ∧ c' = (c + 2) % L := by
        intro c' hc' r hr hi
        have h0 : c' ≠ c := by rintro rfl; exact hno r hr hi
        have h1 : (c' + 1) % L ≠ c := by
          intro e
          have := hi.nbr .right (by rw [nbr_right_rc hc', e]; exact hcol r hr)
          rw [nbr_right_rc hc', e] at this
          exact hno r hr this
        have h2 : (c' + (L - 1)) % L ≠ c := by
          intro e
          have := hi.nbr .left (by rw [nbr_left_rc hc', e]; exact hcol r hr)
          rw [nbr_left_rc hc', e] at this
          exact hno r hr this
        have : L = 3 ∨ L = 4 := by omega
        rcases this with rfl | rfl <;> omega
      refine .inr ⟨(c + 2) % L, Nat.mod_lt _ (by omega), fun r hr => ?_⟩
      obtain ⟨c', hc', h, _⟩ := h r hr
      have hi := (hin _).2 h
      rw [← (far c' hc' r hr hi).2]
      exact hi
    · obtain ⟨r, hr, h, _⟩ := h c hc
      exact absurd ((hin _).2 h) (hno r hr)

/-- For `L ≤ 4` the first complete line of the wrapping cluster is the row or the column of the site just placed. -/
theorem anyStraight_small (hL4 : L ≤ 4) (hq : ∀ s ∈ q, s < L * L) (h : AnyStraight L (q ++ [k])) :
    AnyStraight L q ∨ Straight L (q ++ [k]) k := by
  obtain ⟨hw, h⟩ := h
  rcases h with ⟨r, hr, h⟩ | ⟨c, hc, h⟩
  · by_cases e : r = k / L
    · exact .inr ⟨hw, .inl (e ▸ h)⟩
    · refine .inl (full_row_small hw.1 hL4 hq hr fun c hc => ?_)
      have := (h c hc).mem
      simp only [List.mem_append, List.mem_singleton] at this
      rcases this with h | rfl
      · exact h
      · rw [mul_add_div_L hc] at e; exact absurd rfl e
  · by_cases e : c = k % L
    · exact .inr ⟨hw, .inr (e ▸ h)⟩
    · refine .inl (full_col_small hw.1 hL4 hq hc fun r hr => ?_)
      have := (h r hr).mem
      simp only [List.mem_append, List.mem_singleton] at this
      rcases this with h | rfl
      · exact h
      · rw [mul_add_mod_L hc] at e; exact absurd rfl e

/-- Along a list of sites, for `L ≤ 4`: some prefix has a complete line iff some prefix has one through its last site. -/
theorem no_straight_small {ids : List Nat} (hL4 : L ≤ 4) (hlt : ∀ s ∈ ids, s < L * L) {n : Nat} (hn : n ≤ ids.length)
    (h : ∀ i k, i < n → ids[i]? = some k → ¬ Straight L (ids.take (i + 1)) k) : ¬ AnyStraight L (ids.take n) := by
  induction n with
  | zero =>
    rintro ⟨⟨_, s, v, _, w⟩, _⟩
    exact absurd w.occ_left (by simp)
  | succ n ih =>
    intro ha
    have hlt' : n < ids.length := by omega
    have e : ids.take (n + 1) = ids.take n ++ [ids[n]] := by rw [List.take_append_getElem]
    rw [e] at ha
    rcases anyStraight_small hL4 (fun s hs => hlt s (List.mem_of_mem_take hs)) ha with h' | h'
    · exact ih (by omega) (fun i k hi => h i k (by omega)) h'
    · rw [← e] at h'
      exact h n _ (by omega) (List.getElem?_eq_getElem hlt') h'

/-- C40 for `L ≤ 4`: the run stops exactly at the first occupation for which the wrapping cluster contains a complete row or column, and
places the whole list if there is none. -/
theorem C40_first_small {ids : List Int} (hL4 : L ≤ 4) (hS : Start env .sp L S) (hne : ids ≠ []) (hids : ∀ i ∈ ids, 0 ≤ i ∧ i < (L : Int) * L)
    (hnd : ids.Nodup) (draws : Nat → Nat) {fuel : Nat} (hf : ids.length < fuel) :
    ∃ S1 S' n, S.setCustomIds ids false draws = .ok S1 ∧ S1.spRunOnce env fuel = .ok S' ∧
      Trace env .sp L S' ((ids.map Int.toNat).take n) ∧ n ≤ ids.length ∧
      (∀ i < n, ¬ AnyStraight L ((ids.map Int.toNat).take i)) ∧
      (S'.selectionFlag = some .success ∧ AnyStraight L ((ids.map Int.toNat).take n) ∨
       S'.selectionFlag = some .emptySiteList ∧ n = ids.length ∧ ¬ AnyStraight L (ids.map Int.toNat)) := by
  obtain ⟨S1, S', n, e1, e2, T, hn, h1, h2⟩ := C40_exact hS hne hids hnd draws hf
  have hlt : ∀ s ∈ ids.map Int.toNat, s < L * L := by
    intro s hs
    obtain ⟨i, hi, rfl⟩ := List.mem_map.1 hs
    have := hids i hi
    zify; omega
  refine ⟨S1, S', n, e1, e2, T, hn, ?_, ?_⟩
  · intro i hi
    exact no_straight_small hL4 hlt (by simp; omega) fun j k hj => h1 j k (by omega)
  · refine h2.imp ?_ ?_
    · rintro ⟨h, h0, k, hk, hs⟩
      exact ⟨h, hs.any (hlt k (List.mem_of_getElem? hk))⟩
    · rintro ⟨h, rfl, hs⟩
      refine ⟨h, rfl, ?_⟩
      have := no_straight_small hL4 hlt (n := ids.length) (by simp) fun j k _ => hs j k
      rwa [show ids.length = (ids.map Int.toNat).length by simp, List.take_length] at this

/-! ### Longer lattices -/

/-- A wrapping path around the torus that contains no complete row or column: the first row without its second site, and a detour
through the second row. -/
def detour (L : Nat) : List Nat := (List.range (L - 2)).map (· + 2) ++ [0, L, L + 1, L + 2]

/-- The order of the counterexample: the detour, then the complete fourth row, then a site that joins them. -/
def lateOrder (L : Nat) : List Nat := detour L ++ (List.range L).map (3 * L + ·) ++ [2 * L + 1]

theorem mem_detour {s : Nat} : s ∈ detour L ↔ (2 ≤ s ∧ s < L) ∨ s = 0 ∨ s = L ∨ s = L + 1 ∨ s = L + 2 := by
  simp only [detour, List.mem_append, List.mem_map, List.mem_range, List.mem_cons, List.not_mem_nil, or_false]
  constructor
  · rintro (⟨a, h, rfl⟩ | h)
    · left; omega
    · right; exact h
  · rintro (h | h)
    · exact .inl ⟨s - 2, by omega, by omega⟩
    · exact .inr h

theorem mem_fourth {s : Nat} : s ∈ (List.range L).map (3 * L + ·) ↔ 3 * L ≤ s ∧ s < 4 * L := by
  simp only [List.mem_map, List.mem_range]
  constructor
  · rintro ⟨a, h, rfl⟩; omega
  · rintro ⟨h1, h2⟩; exact ⟨s - 3 * L, by omega, by omega⟩

theorem detour_nodup (hL : 5 ≤ L) : (detour L).Nodup := by
  refine List.nodup_append.2 ⟨List.Nodup.map (fun a b h => by simpa using h) List.nodup_range, by simp; omega, ?_⟩
  intro a ha b hb
  simp only [List.mem_map, List.mem_range] at ha
  obtain ⟨x, hx, rfl⟩ := ha
  simp only [List.mem_cons, List.not_mem_nil, or_false] at hb
  omega

theorem lateOrder_nodup (hL : 5 ≤ L) : (lateOrder L).Nodup := by
  refine List.nodup_append.2 ⟨List.nodup_append.2 ⟨detour_nodup hL, List.Nodup.map (fun a b h => by simpa using h) List.nodup_range, ?_⟩, by simp, ?_⟩
  · intro a ha b hb
    rw [mem_detour] at ha
    rw [mem_fourth] at hb
    omega
  · intro a ha b hb
    rw [List.mem_append, mem_detour, mem_fourth] at ha
    rw [List.mem_singleton] at hb
    omega

theorem lateOrder_lt (hL : 5 ≤ L) {s : Nat} (hs : s ∈ lateOrder L) : s < L * L := by
  have : 5 * L ≤ L * L := Nat.mul_le_mul_right L hL
  simp only [lateOrder, List.mem_append, mem_detour, mem_fourth, List.mem_singleton] at hs
  omega

/-- The detour is connected, from the third site on. -/
theorem detour_walks (hL : 5 ≤ L) : (∀ c, 2 ≤ c → c < L → Walk L (· ∈ detour L) 2 c (0, (c : Int) - 2)) ∧
    Walk L (· ∈ detour L) 2 0 (0, (L : Int) - 2) ∧ Walk L (· ∈ detour L) 2 L (1, (L : Int) - 2) ∧
    Walk L (· ∈ detour L) 2 (L + 1) (1, (L : Int) - 1) ∧ Walk L (· ∈ detour L) 2 (L + 2) (1, (L : Int)) ∧ Walk L (· ∈ detour L) 2 2 (0, (L : Int)) := by
  have h1 : ∀ c, 2 ≤ c → c < L → Walk L (· ∈ detour L) 2 c (0, (c : Int) - 2) := by
    intro c h2
    induction c, h2 using Nat.le_induction with
    | base => intro _; exact .nil (mem_detour.2 (by omega))
    | succ c h2 ih =>
      intro hc
      have e : nbr L c .right = c + 1 := by
        have := nbr_right_rc (L := L) (r := 0) (c := c) (by omega)
        rwa [Nat.zero_mul, Nat.zero_add, Nat.zero_add, Nat.mod_eq_of_lt hc] at this
      have := Walk.snoc .right (ih (by omega)) (by rw [e]; exact mem_detour.2 (by omega))
      rw [e] at this
      convert this using 1
      simp [Dir.vec]; ring
  have h2 : Walk L (· ∈ detour L) 2 0 (0, (L : Int) - 2) := by
    have e : nbr L (L - 1) .right = 0 := by
      have := nbr_right_rc (L := L) (r := 0) (c := L - 1) (by omega)
      rwa [Nat.zero_mul, Nat.zero_add, Nat.zero_add, Nat.sub_add_cancel (by omega), Nat.mod_self] at this
    have := Walk.snoc .right (h1 (L - 1) (by omega) (by omega)) (by rw [e]; exact mem_detour.2 (by omega))
    rw [e] at this
    convert this using 1
    simp [Dir.vec]; omega
  have h3 : Walk L (· ∈ detour L) 2 L (1, (L : Int) - 2) := by
    have e : nbr L 0 .down = L := by
      have := nbr_down_rc (L := L) (r := 0) (c := 0) (by omega)
      rwa [Nat.zero_mul, Nat.zero_add, Nat.mod_eq_of_lt (by omega), Nat.one_mul] at this
    have := Walk.snoc .down h2 (by rw [e]; exact mem_detour.2 (by omega))
    rw [e] at this
    convert this using 1
    simp [Dir.vec]
  have h4 : Walk L (· ∈ detour L) 2 (L + 1) (1, (L : Int) - 1) := by
    have e : nbr L L .right = L + 1 := by
      have := nbr_right_rc (L := L) (r := 1) (c := 0) (by omega)
      rwa [Nat.one_mul, Nat.zero_add, Nat.mod_eq_of_lt (by omega)] at this
    have := Walk.snoc .right h3 (by rw [e]; exact mem_detour.2 (by omega))
    rw [e] at this
    convert this using 1
    simp [Dir.vec]; omega
  have h5 : Walk L (· ∈ detour L) 2 (L + 2) (1, (L : Int)) := by
    have e : nbr L (L + 1) .right = L + 2 := by
      have := nbr_right_rc (L := L) (r := 1) (c := 1) (by omega)
      rwa [Nat.one_mul, Nat.mod_eq_of_lt (by omega)] at this
    have := Walk.snoc .right h4 (by rw [e]; exact mem_detour.2 (by omega))
    rw [e] at this
    convert this using 1
    simp [Dir.vec]
  refine ⟨h1, h2, h3, h4, h5, ?_⟩
  have e : nbr L (L + 2) .up = 2 := by
    have := nbr_up_rc (L := L) (r := 1) (c := 2) (by omega)
    rwa [Nat.one_mul, show 1 + (L - 1) = L by omega, Nat.mod_self, Nat.zero_mul, Nat.zero_add] at this
  have := Walk.snoc .up h5 (by rw [e]; exact mem_detour.2 (by omega))
  rw [e] at this
  convert this using 1
  simp [Dir.vec]

theorem detour_wraps (hL : 5 ≤ L) : Wraps L (· ∈ detour L) :=
  ⟨2, (0, (L : Int)), fun h => (by have := congrArg Prod.snd h; simp at this; omega), (detour_walks hL).2.2.2.2.2⟩

theorem detour_conn (hL : 5 ≤ L) {s : Nat} (hs : s ∈ detour L) : SiteConn L (· ∈ detour L) 2 s := by
  obtain ⟨h1, h2, h3, h4, h5, _⟩ := detour_walks hL
  rcases mem_detour.1 hs with h | rfl | rfl | rfl | rfl
  · exact (h1 s h.1 h.2).siteConn
  · exact h2.siteConn
  · exact h3.siteConn
  · exact h4.siteConn
  · exact h5.siteConn

/-- If the list begins with the detour, the site that closes the first loop belongs to the detour. -/
theorem detour_root (hL : 5 ≤ L) (t : List Nat) {s : Nat} : InWrap L (detour L ++ t) s ↔ SiteConn L (· ∈ detour L ++ t) 2 s := by
  obtain ⟨pre, k, post, e, h1, h2⟩ := first_wrap (detour L) (detour_wraps hL)
  have hk : k ∈ detour L := by rw [e]; simp
  have up : ∀ {a b : Nat}, SiteConn L (· ∈ detour L) a b → SiteConn L (· ∈ detour L ++ t) a b := fun h =>
    SiteConn.mono_mem (fun _ h => List.mem_append_left _ h) h
  have hw := detour_walks hL
  have back : SiteConn L (· ∈ detour L) k 2 := by
    obtain ⟨v, w⟩ := (detour_conn hL hk).walk (hw.1 2 (by omega) (by omega)).occ_left
    exact (w.reverse fun s hs => lateOrder_lt hL (by simp [lateOrder, hs])).siteConn
  constructor
  · rintro ⟨pre', k', post', e', h1', h2', hc⟩
    have e2 : pre ++ k :: (post ++ t) = pre' ++ k' :: post' := by rw [← e', e]; simp
    obtain ⟨rfl, rfl, rfl⟩ := first_unique e2 h1 h2 h1' h2'
    exact (up (detour_conn hL hk)).trans hc
  · intro hc
    exact ⟨pre, k, post ++ t, by rw [e]; simp, h1, h2, (up back).trans hc⟩

/-- Before the last site is placed, the wrapping cluster stays in the first two rows. -/
theorem detour_apart (hL : 5 ≤ L) {t : List Nat} (ht : ∀ s ∈ t, 3 * L ≤ s ∧ s < 4 * L) {s : Nat} (h : InWrap L (detour L ++ t) s) : s < 2 * L := by
  rw [detour_root hL] at h
  induction h with
  | refl => omega
  | @tail a b _ h ih =>
    obtain ⟨ha, hb, d, rfl⟩ := h
    have hal : a < L * L := by have := Nat.mul_le_mul_right L hL; omega
    by_contra hb2
    have hb3 : 3 * L ≤ nbr L a d ∧ nbr L a d < 4 * L := by
      rcases List.mem_append.1 hb with h | h
      · rw [mem_detour] at h; omega
      · exact ht _ h
    have hrow : nbr L a d / L = 3 := by
      rw [Nat.div_eq_iff (by omega)]; omega
    have har : a / L = 0 ∨ a / L = 1 := by
      have : a / L < 2 := (Nat.div_lt_iff_lt_mul (by omega)).2 (by omega)
      generalize a / L = x at this
      omega
    have hm := Nat.mod_lt a (show 0 < L by omega)
    cases d with
    | right => simp only [nbr] at hrow; rw [mul_add_div_L (Nat.mod_lt _ (by omega))] at hrow; omega
    | left => simp only [nbr] at hrow; rw [mul_add_div_L (Nat.mod_lt _ (by omega))] at hrow; omega
    | down =>
      simp only [nbr] at hrow
      rw [mul_add_div_L hm, Nat.mod_eq_of_lt (by omega)] at hrow; omega
    | up =>
      simp only [nbr] at hrow
      rw [mul_add_div_L hm] at hrow
      rcases har with h | h <;> rw [h] at hrow
      · rw [Nat.mod_eq_of_lt (by omega)] at hrow; omega
      · rw [show 1 + (L - 1) = L by omega, Nat.mod_self] at hrow; omega

/-- After the last site the wrapping cluster contains the complete fourth row. -/
theorem lateOrder_any (hL : 5 ≤ L) : AnyStraight L (lateOrder L) := by
  have hrow : ∀ c < L, 3 * L + c ∈ lateOrder L := fun c hc => by
    simp only [lateOrder, List.mem_append, mem_fourth]; left; right; omega
  refine ⟨⟨by omega, (row_wraps (occ := (· ∈ lateOrder L)) (by omega) hrow).wraps⟩, .inl ⟨3, by omega, ?_⟩⟩
  have e : lateOrder L = detour L ++ ((List.range L).map (3 * L + ·) ++ [2 * L + 1]) := by simp [lateOrder]
  have h1 : InWrap L (lateOrder L) (L + 1) := by
    rw [e, detour_root hL]
    exact SiteConn.mono_mem (fun _ h => List.mem_append_left _ h) (detour_conn hL (mem_detour.2 (.inr (.inr (.inr (.inl rfl))))))
  have e1 : nbr L (L + 1) .down = 2 * L + 1 := by
    have := nbr_down_rc (L := L) (r := 1) (c := 1) (by omega)
    rwa [Nat.one_mul, Nat.mod_eq_of_lt (by omega)] at this
  have e2 : nbr L (2 * L + 1) .down = 3 * L + 1 := by
    have := nbr_down_rc (L := L) (r := 2) (c := 1) (by omega)
    rwa [Nat.mod_eq_of_lt (by omega)] at this
  have h2 := h1.nbr .down (by rw [e1]; simp [lateOrder])
  rw [e1] at h2
  have h3 := h2.nbr .down (by rw [e2]; exact hrow 1 (by omega))
  rw [e2] at h3
  exact h3.row (by omega) hrow

/-- At no stage the wrapping cluster contains the row or the column of the site just placed. -/
theorem lateOrder_none (hL : 5 ≤ L) (i k : Nat) (hk : (lateOrder L)[i]? = some k) : ¬ Straight L ((lateOrder L).take (i + 1)) k := by
  rintro ⟨_, h⟩
  have hsub : ∀ {s}, s ∈ (lateOrder L).take (i + 1) → s ∈ lateOrder L := fun h => List.mem_of_mem_take h
  have hkm : k ∈ lateOrder L := List.mem_of_getElem? hk
  have hkl := lateOrder_lt hL hkm
  rcases h with h | h
  · -- the row of `k`
    simp only [lateOrder, List.mem_append, mem_detour, mem_fourth, List.mem_singleton] at hkm
    have miss : ∀ c < L, k / L * L + c ∈ lateOrder L := fun c hc => hsub (h c hc).mem
    have hd := Nat.div_add_mod' k L
    have hm := Nat.mod_lt k (show 0 < L by omega)
    have row : ∀ r, r * L ≤ k → k < (r + 1) * L → k / L = r := fun r h1 h2 => by
      rw [Nat.div_eq_iff (by omega)]
      rw [Nat.add_mul] at h2; omega
    have hcase : k / L = 0 ∨ k / L = 1 ∨ k / L = 2 ∨ (3 * L ≤ k ∧ k < 4 * L) := by
      rcases hkm with ((h | h | h | h | h) | h) | h
      · exact .inl (row 0 (by omega) (by omega))
      · exact .inl (row 0 (by omega) (by omega))
      · exact .inr (.inl (row 1 (by omega) (by omega)))
      · exact .inr (.inl (row 1 (by omega) (by omega)))
      · exact .inr (.inl (row 1 (by omega) (by omega)))
      · exact .inr (.inr (.inr h))
      · exact .inr (.inr (.inl (row 2 (by omega) (by omega))))
    rcases hcase with e | e | e | e
    · have := miss 1 (by omega)
      rw [e] at this
      simp only [lateOrder, List.mem_append, mem_detour, mem_fourth, List.mem_singleton] at this
      omega
    · have := miss 3 (by omega)
      rw [e] at this
      simp only [lateOrder, List.mem_append, mem_detour, mem_fourth, List.mem_singleton] at this
      omega
    · have := miss 0 (by omega)
      rw [e] at this
      simp only [lateOrder, List.mem_append, mem_detour, mem_fourth, List.mem_singleton] at this
      omega
    · -- the fourth row is not connected to the wrapping cluster yet
      obtain ⟨hi, hki⟩ := List.getElem?_eq_some_iff.1 hk
      have hlen : (lateOrder L).length = (detour L).length + L + 1 := by simp [lateOrder]; omega
      have hlast : i ≠ (detour L).length + L := by
        rintro rfl
        have : (lateOrder L)[(detour L).length + L]? = some (2 * L + 1) := by
          rw [lateOrder, List.getElem?_append_right (by simp)]
          simp
        rw [this] at hk
        have := Option.some.inj hk
        omega
      have hfirst : (detour L).length ≤ i := by
        by_contra hlt
        have : (lateOrder L)[i]? = (detour L)[i]? := by
          rw [lateOrder, List.append_assoc, List.getElem?_append_left (by omega)]
        rw [this] at hk
        have := List.mem_of_getElem? hk
        rw [mem_detour] at this
        omega
      have htake : (lateOrder L).take (i + 1) = detour L ++ ((List.range L).map (3 * L + ·)).take (i + 1 - (detour L).length) := by
        rw [lateOrder, List.take_append_of_le_length (by simp; omega), List.take_append, List.take_of_length_le (by omega)]
      have := h (k % L) hm
      rw [htake, hd] at this
      have := detour_apart hL (fun s hs => mem_fourth.1 (List.mem_of_mem_take hs)) this
      omega
  · -- the column of `k` has an empty site in the fifth row
    have := hsub (h 4 (by omega)).mem
    have hm := Nat.mod_lt k (show 0 < L by omega)
    simp only [lateOrder, List.mem_append, mem_detour, mem_fourth, List.mem_singleton] at this
    omega

/-- C40 for every `L ≥ 5`: there is an order of sites for which the wrapping cluster contains a complete row in the end, but `run_once`
places all of them and reports no shortest path. -/
theorem C40_not_first_all (hL : 5 ≤ L) (hS : Start env .sp L S) (draws : Nat → Nat) {fuel : Nat} (hf : (lateOrder L).length < fuel) :
    AnyStraight L (lateOrder L) ∧ ∃ S1 S', S.setCustomIds ((lateOrder L).map Int.ofNat) false draws = .ok S1 ∧ S1.spRunOnce env fuel = .ok S' ∧
      Trace env .sp L S' (lateOrder L) ∧ S'.selectionFlag = some .emptySiteList ∧ S'.shortestP = env.ar.ofNat 0 := by
  refine ⟨lateOrder_any hL, ?_⟩
  have hne : (lateOrder L).map Int.ofNat ≠ [] := by simp [lateOrder]
  have hin : ∀ i ∈ (lateOrder L).map Int.ofNat, 0 ≤ i ∧ i < (L : Int) * L := by
    intro i hi
    obtain ⟨s, hs, rfl⟩ := List.mem_map.1 hi
    have := lateOrder_lt hL hs
    refine ⟨Int.natCast_nonneg s, ?_⟩
    show (s : Int) < _
    exact_mod_cast this
  obtain ⟨S1, e1, H, T, _⟩ := hS.setIds hne hin draws
  have hz : ((lateOrder L).map Int.ofNat).map Int.toNat = lateOrder L := by
    rw [List.map_map]; exact List.map_id _
  rw [hz] at H
  obtain ⟨S', n, e2, h1, h2, h3, h4⟩ := H.spRunOnce (fuel := fuel) (lateOrder_nodup hL) T hf
  rcases h4 with ⟨_, _, h0, k, hk, hs⟩ | ⟨g1, g2, rfl, _⟩
  · refine absurd hs ?_
    have := lateOrder_none hL (n - 1) k hk
    rwa [Nat.sub_add_cancel h0] at this
  · rw [List.take_length] at h2
    refine ⟨S1, S', e1, e2, h2, g1, ?_⟩
    obtain ⟨_, A, M, hA⟩ := hS.reach.sim
    have e := setIds_off M hne hin draws
    rw [e] at e1
    rw [g2, ← Except.ok.inj e1]
    exact hS.shortest

/-- C40, the exact range of lengths: the run stops at the first complete line of the wrapping cluster for every order of distinct sites
iff `L ≤ 4`. -/
theorem C40_first_iff (hS : Start env .sp L S) (draws : Nat → Nat) :
    (∀ ids : List Int, ids ≠ [] → (∀ i ∈ ids, 0 ≤ i ∧ i < (L : Int) * L) → ids.Nodup → ∀ fuel, ids.length < fuel →
      ∃ S1 S' n, S.setCustomIds ids false draws = .ok S1 ∧ S1.spRunOnce env fuel = .ok S' ∧
        Trace env .sp L S' ((ids.map Int.toNat).take n) ∧ n ≤ ids.length ∧
        (∀ i < n, ¬ AnyStraight L ((ids.map Int.toNat).take i)) ∧
        (S'.selectionFlag = some .success ∧ AnyStraight L ((ids.map Int.toNat).take n) ∨
         S'.selectionFlag = some .emptySiteList ∧ n = ids.length ∧ ¬ AnyStraight L (ids.map Int.toNat))) ↔ L ≤ 4 := by
  constructor
  · intro h
    by_contra hL
    have hL : 5 ≤ L := by omega
    obtain ⟨ha, S1, S', e1, e2, _, hf, _⟩ := C40_not_first_all hL hS draws (Nat.lt_succ_self _)
    have hz : ((lateOrder L).map Int.ofNat).map Int.toNat = lateOrder L := by
      rw [List.map_map]; exact List.map_id _
    obtain ⟨S1', S'', n, e1', e2', _, _, _, hd⟩ := h ((lateOrder L).map Int.ofNat) (by simp [lateOrder])
      (by
        intro i hi
        obtain ⟨s, hs, rfl⟩ := List.mem_map.1 hi
        have := lateOrder_lt hL hs
        refine ⟨Int.natCast_nonneg s, ?_⟩
        show (s : Int) < _
        exact_mod_cast this)
      ((lateOrder_nodup hL).map fun a b h => Int.ofNat.inj h) _ (by rw [List.length_map]; exact Nat.lt_succ_self _)
    rw [e1] at e1'
    obtain rfl := Except.ok.inj e1'
    rw [e2] at e2'
    obtain rfl := Except.ok.inj e2'
    rcases hd with ⟨h, _⟩ | ⟨_, _, h⟩
    · rw [hf] at h; cases h
    · rw [hz] at h; exact h ha
  · intro hL ids hne hids hnd fuel hf
    exact C40_first_small hL hS hne hids hnd draws hf

/-- C40 in the default mode, `L = 3` and `L = 4`: for every shuffle `run_once` succeeds and stops at the first complete line. -/
theorem C40_default_small (hL : 3 ≤ L) (hL4 : L ≤ 4) (h : Fresh env .sp L S) {fuel : Nat} (hf : L * L < fuel) :
    ∃ S' n, S.spRunOnce env fuel = .ok S' ∧ S'.selectionFlag = some .success ∧ Trace env .sp L S' (S.siteIds.take n) ∧
      S'.shortestP = S'.occupationProb env ∧ AnyStraight L (S.siteIds.take n) ∧ ∀ i < n, ¬ AnyStraight L (S.siteIds.take i) := by
  obtain ⟨hp, H⟩ := h.perm rfl
  have hl : S.siteIds.length = L * L := by rw [hp.length_eq, List.length_range]
  obtain ⟨S', n, e, h1, h2, h3, h4⟩ := H.spRunOnce (fuel := fuel) (hp.nodup_iff.2 List.nodup_range) h.trace (by omega)
  obtain ⟨S'', e', hs, _⟩ := C41_found hL h hf
  rw [e] at e'
  obtain rfl := Except.ok.inj e'
  rcases h4 with ⟨g1, g2, g3, k, hk, g4⟩ | ⟨g1, _⟩
  · refine ⟨S', n, e, g1, h2, g2, g4.any (H.lt _ (List.mem_of_getElem? hk)), fun i hi => ?_⟩
    exact no_straight_small hL4 H.lt (by omega) fun j k hj => h3 j k (by omega)
  · rw [hs] at g1; cases g1

/-- C40 in the default mode, every `L ≥ 5`: for some shuffle `run_once` stops only after further sites have been placed although the
wrapping cluster already contained a complete row, so `get_shortest_path_p()` is too large. -/
theorem C40_default_late (hL : 5 ≤ L) (env : Env α) {fuel : Nat} (hf : L * L < fuel) :
    ∃ draws S S' m n, Perc.new env L draws = .ok S ∧ S.spRunOnce env fuel = .ok S' ∧ S'.selectionFlag = some .success ∧
      S'.shortestP = env.ar.div (env.ar.ofNat n) (env.ar.ofNat (L * L)) ∧ Trace env .sp L S' (S.siteIds.take n) ∧ n ≤ L * L ∧
      m < n ∧ AnyStraight L (S.siteIds.take m) := by
  obtain ⟨rest, hp⟩ : ∃ rest, (lateOrder L ++ rest).Perm (List.range (L * L)) := by
    obtain ⟨l, hl, hsub⟩ := List.subperm_of_subset (lateOrder_nodup hL) fun s hs => List.mem_range.2 (lateOrder_lt hL hs)
    obtain ⟨rest, h⟩ := hsub.exists_perm_append
    exact ⟨rest, ((hl.symm.append_right rest)).trans h.symm⟩
  obtain ⟨draws, S, e0, he⟩ := (C32_new (env := env) (L := L) (by omega)).2 _ hp
  have h : Fresh env .sp L S := .new e0
  obtain ⟨hp, H⟩ := h.perm rfl
  have hl : S.siteIds.length = L * L := by rw [hp.length_eq, List.length_range]
  obtain ⟨S', n, e, h1, h2, h3, h4⟩ := H.spRunOnce (fuel := fuel) (hp.nodup_iff.2 List.nodup_range) h.trace (by omega)
  obtain ⟨S'', e', hs, _⟩ := C41_found (by omega) h hf
  rw [e] at e'
  obtain rfl := Except.ok.inj e'
  rcases h4 with ⟨g1, g2, g3, k, hk, g4⟩ | ⟨g1, _⟩
  · refine ⟨draws, S, S', (lateOrder L).length, n, e0, e, g1, ?_, h2, by omega, ?_, ?_⟩
    · obtain ⟨m, _, _, _, _, g⟩ := h2.pc_nums g4.1
      rw [g2, g, List.length_take, Nat.min_eq_left h1]
    · by_contra hn
      rw [he] at hk g4
      rw [List.getElem?_append_left (by omega)] at hk
      rw [List.take_append_of_le_length (by omega)] at g4
      have := lateOrder_none hL (n - 1) k hk
      rw [Nat.sub_add_cancel g3] at this
      exact this g4
    · rw [he, List.take_left]
      exact lateOrder_any hL
  · rw [hs] at g1; cases g1

example : ∃ S, Start demoEnv .sp 4 S := (fresh_exists demoEnv .sp (by omega) (fun _ => 0)).elim fun _ h => ⟨_, .new h.1⟩
example : ∃ S, Start demoEnv .sp 7 S := (fresh_exists demoEnv .sp (by omega) (fun _ => 0)).elim fun _ h => ⟨_, .new h.1⟩
example : lateOrder 5 = [2, 3, 4, 0, 5, 6, 7, 15, 16, 17, 18, 19, 11] := by decide

end SqPerc
