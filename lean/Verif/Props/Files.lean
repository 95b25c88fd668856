import Verif.Model.Files
import Mathlib.Data.List.Nodup
/-
Property C62: the names of the output files.
-/
namespace SqPerc

/-- A time whose parts fit their fields. -/
def Stamp.Valid (t : Stamp) : Prop :=
  1000 ≤ t.year ∧ t.year < 10000 ∧ t.month < 100 ∧ t.day < 100 ∧ t.hour < 100 ∧ t.minute < 100 ∧ t.second < 100

theorem prefix_apart : ∀ c ∈ [FileClass.base, .l0, .l1, .l2, .sp], ∀ k ∈ [FileKind.entropyOrder, .criticalValues, .shortestPathP, .crossCheck],
    ∀ c' ∈ [FileClass.base, .l0, .l1, .l2, .sp], ∀ k' ∈ [FileKind.entropyOrder, .criticalValues, .shortestPathP, .crossCheck],
    (c = c' ∧ k = k') ∨ ∃ i ∈ List.range 40, i < (c.signature ++ k.label).toList.length ∧ i < (c'.signature ++ k'.label).toList.length ∧
      (c.signature ++ k.label).toList[i]? ≠ (c'.signature ++ k'.label).toList[i]? := by decide +kernel

theorem FileClass.mem_all (c : FileClass) : c ∈ [FileClass.base, .l0, .l1, .l2, .sp] := by cases c <;> simp

theorem FileKind.mem_all (k : FileKind) : k ∈ [FileKind.entropyOrder, .criticalValues, .shortestPathP, .crossCheck] := by cases k <;> simp

/-- Two names with the same beginning are of the same class and kind. -/
theorem prefix_inj {c c' : FileClass} {k k' : FileKind} {r r' : List Char}
    (h : (c.signature ++ k.label).toList ++ r = (c'.signature ++ k'.label).toList ++ r') : c = c' ∧ k = k' ∧ r = r' := by
  rcases prefix_apart c c.mem_all k k.mem_all c' c'.mem_all k' k'.mem_all with ⟨rfl, rfl⟩ | ⟨i, _, h1, h2, h3⟩
  · exact ⟨rfl, rfl, List.append_cancel_left h⟩
  · have := congrArg (fun l => l[i]?) h
    simp only [List.getElem?_append_left h1, List.getElem?_append_left h2] at this
    exact absurd this h3

/-- Splitting at the first underscore. -/
theorem split_underscore {d d' r r' : List Char} (hd : '_' ∉ d) (hd' : '_' ∉ d') (h : d ++ '_' :: r = d' ++ '_' :: r') : d = d' ∧ r = r' := by
  induction d generalizing d' with
  | nil =>
    cases d' with
    | nil => exact ⟨rfl, (List.cons.inj h).2⟩
    | cons a d' => exact absurd (List.cons.inj h).1 (fun e => hd' (e ▸ List.mem_cons_self))
  | cons a d ih =>
    cases d' with
    | nil => exact absurd (List.cons.inj h).1 (fun e => hd (e ▸ List.mem_cons_self))
    | cons b d' =>
      obtain ⟨rfl, h2⟩ := List.cons.inj h
      obtain ⟨rfl, h3⟩ := ih (fun hm => hd (by simp [hm])) (fun hm => hd' (by simp [hm])) h2
      exact ⟨rfl, h3⟩

theorem toDigits_inj {m n : Nat} (h : Nat.toDigits 10 m = Nat.toDigits 10 n) : m = n := by
  have := congrArg (fun l => Nat.ofDigitChars 10 l 0) h
  simpa only [Nat.ofDigitChars_ten_toDigits] using this

theorem pad_toList (k n : Nat) : (pad k n).toList = List.replicate (k - (Nat.toDigits 10 n).length) '0' ++ Nat.toDigits 10 n := by
  simp [pad, String.toList_append, Nat.toString_eq_repr, Nat.toList_repr]

theorem pad_length {k n : Nat} (hk : 0 < k) (h : n < 10 ^ k) : (pad k n).toList.length = k := by
  have := (Nat.length_toDigits_le_iff (b := 10) (by decide) hk).2 h
  rw [pad_toList, List.length_append, List.length_replicate]
  omega

theorem pad_inj {k m n : Nat} (h : (pad k m).toList = (pad k n).toList) : m = n := by
  have := congrArg (fun l => Nat.ofDigitChars 10 l 0) h
  simpa only [pad_toList, Nat.ofDigitChars_append, Nat.ofDigitChars_replicate_zero, Nat.mul_zero, Nat.ofDigitChars_ten_toDigits] using this

theorem pad_append_inj {k m n : Nat} (hk : 0 < k) (hm : m < 10 ^ k) (hn : n < 10 ^ k) {r r' : List Char}
    (h : (pad k m).toList ++ r = (pad k n).toList ++ r') : m = n ∧ r = r' := by
  obtain ⟨h1, h2⟩ := List.append_inj h (by rw [pad_length hk hm, pad_length hk hn])
  exact ⟨pad_inj h1, h2⟩

theorem stamp_inj {t t' : Stamp} (ht : t.Valid) (ht' : t'.Valid) {r r' : List Char} (h : t.text.toList ++ r = t'.text.toList ++ r') :
    t = t' ∧ r = r' := by
  obtain ⟨_, a1, a2, a3, a4, a5, a6⟩ := ht
  obtain ⟨_, b1, b2, b3, b4, b5, b6⟩ := ht'
  simp only [Stamp.text, String.toList_append, List.append_assoc] at h
  obtain ⟨e1, h⟩ := pad_append_inj (by decide) a1 b1 h
  obtain ⟨e2, h⟩ := pad_append_inj (by decide) a2 b2 h
  obtain ⟨e3, h⟩ := pad_append_inj (by decide) a3 b3 h
  obtain ⟨e4, h⟩ := pad_append_inj (by decide) a4 b4 (List.append_cancel_left h)
  obtain ⟨e5, h⟩ := pad_append_inj (by decide) a5 b5 h
  obtain ⟨e6, h⟩ := pad_append_inj (by decide) a6 b6 h
  refine ⟨?_, h⟩
  cases t; cases t'
  simp only at e1 e2 e3 e4 e5 e6
  rw [e1, e2, e3, e4, e5, e6]

/-- C62: different class, kind of table, lattice length, time or worker: different file.  (The ensemble size and the seed are not part of the
name.) -/
theorem C62_names_distinct {c c' : FileClass} {k k' : FileKind} {l l' : Nat} {t t' : Stamp} {w w' : Option Nat} (ht : t.Valid) (ht' : t'.Valid) :
    fileName c k l t w = fileName c' k' l' t' w' ↔ c = c' ∧ k = k' ∧ l = l' ∧ t = t' ∧ w = w' := by
  constructor
  · intro h
    have h := congrArg String.toList h
    have hh : ∀ (c : FileClass) (k : FileKind) (l : Nat) (t : Stamp) (w : Option Nat), (fileName c k l t w).toList =
        "./data/".toList ++ ((c.signature ++ k.label).toList ++ (Nat.toDigits 10 l ++ '_' :: (t.text.toList ++ ((workerText w).toList ++ ".txt".toList)))) := by
      intro c k l t w
      simp [fileName, String.toList_append, Nat.toString_eq_repr, Nat.toList_repr]
    rw [hh, hh] at h
    obtain ⟨h1, h2, h⟩ := prefix_inj (List.append_cancel_left h)
    obtain ⟨h3, h⟩ := split_underscore Nat.underscore_not_in_toDigits Nat.underscore_not_in_toDigits h
    obtain ⟨h4, h⟩ := stamp_inj ht ht' h
    refine ⟨h1, h2, toDigits_inj h3, h4, ?_⟩
    have h := List.append_cancel_right h
    cases w with
    | none => cases w' with
      | none => rfl
      | some j => simp [workerText, String.toList_append] at h
    | some i => cases w' with
      | none => simp [workerText, String.toList_append] at h
      | some j =>
        simp only [workerText, String.toList_append, Nat.toString_eq_repr, Nat.toList_repr] at h
        rw [toDigits_inj (List.append_cancel_left h)]
  · rintro ⟨rfl, rfl, rfl, rfl, rfl⟩; rfl

theorem foldl_write_of_not_mem {β : Type} (ws : List (String × β)) (D : Directory β) (name : String) (h : name ∉ ws.map Prod.fst) :
    ws.foldl Directory.write D name = D name := by
  induction ws generalizing D with
  | nil => rfl
  | cons w ws ih =>
    simp only [List.map_cons, List.mem_cons, not_or] at h
    rw [List.foldl_cons, ih _ h.2]
    exact if_neg h.1

theorem foldl_write_of_mem {β : Type} (ws : List (String × β)) (D : Directory β) (hn : (ws.map Prod.fst).Nodup) (w : String × β) (h : w ∈ ws) :
    ws.foldl Directory.write D w.1 = some w.2 := by
  induction ws generalizing D with
  | nil => cases h
  | cons a ws ih =>
    rw [List.map_cons, List.nodup_cons] at hn
    rw [List.foldl_cons]
    rcases List.mem_cons.1 h with rfl | h
    · rw [foldl_write_of_not_mem _ _ _ hn.1]
      exact if_pos rfl
    · exact ih _ hn.2 h

theorem workerWrites_nodup {β : Type} {c : FileClass} {l T : Nat} {t : Nat → Stamp} (ht : ∀ i, (t i).Valid) (entropy crit : Nat → β) :
    ((workerWrites c l T t entropy crit).map Prod.fst).Nodup := by
  have one : ∀ k, ((List.range T).map fun i => fileName c k l (t i) (some i)).Nodup := by
    intro k
    refine List.Nodup.map_on (l := List.range T) ?_ List.nodup_range
    intro i _ j _ h
    have := (C62_names_distinct (ht i) (ht j)).1 h
    exact Option.some.inj this.2.2.2.2
  simp only [workerWrites, List.map_append, List.map_map, Function.comp_def]
  refine List.nodup_append.2 ⟨one _, one _, ?_⟩
  intro a ha b hb
  obtain ⟨i, _, rfl⟩ := List.mem_map.1 ha
  obtain ⟨j, _, rfl⟩ := List.mem_map.1 hb
  intro h
  have := ((C62_names_distinct (ht i) (ht j)).1 h).2.1
  cases this

/-- C62: whatever the order in which the workers of `run_simulation_threads_v4` write, at the end every worker's two tables are in their files, and
all other files are as before. -/
theorem C62_all_tables_survive {β : Type} {inter : Int} {l T : Nat} {t : Nat → Stamp} (ht : ∀ i, (t i).Valid) (entropy crit : Nat → β)
    (D : Directory β) {ws : List (String × β)} (hp : ws.Perm (workerWrites (classOfInteraction inter) l T t entropy crit)) :
    (∀ i < T, ws.foldl Directory.write D (fileName (classOfInteraction inter) .entropyOrder l (t i) (some i)) = some (entropy i) ∧
      ws.foldl Directory.write D (fileName (classOfInteraction inter) .criticalValues l (t i) (some i)) = some (crit i)) ∧
    (∀ c k l' t' w, t'.Valid → 
      ¬ (c = classOfInteraction inter ∧ (k = .entropyOrder ∨ k = .criticalValues) ∧ l' = l ∧ ∃ i < T, t' = t i ∧ w = some i) →
      ws.foldl Directory.write D (fileName c k l' t' w) = D (fileName c k l' t' w)) := by
  have hn : (ws.map Prod.fst).Nodup := (hp.map Prod.fst).nodup_iff.2 (workerWrites_nodup ht entropy crit)
  refine ⟨fun i hi => ⟨foldl_write_of_mem ws D hn (_, _) (hp.mem_iff.2 ?_), foldl_write_of_mem ws D hn (_, _) (hp.mem_iff.2 ?_)⟩, ?_⟩
  · exact List.mem_append.2 (.inl (List.mem_map.2 ⟨i, List.mem_range.2 hi, rfl⟩))
  · exact List.mem_append.2 (.inr (List.mem_map.2 ⟨i, List.mem_range.2 hi, rfl⟩))
  · intro c k l' t' w ht' ho
    refine foldl_write_of_not_mem _ _ _ ?_
    rw [(hp.map Prod.fst).mem_iff]
    have no : ∀ k' : FileKind, (k' = .entropyOrder ∨ k' = .criticalValues) → ∀ i < T,
        fileName (classOfInteraction inter) k' l (t i) (some i) ≠ fileName c k l' t' w := by
      intro k' hk i hi e
      obtain ⟨h1, h0, h2, h3, h4⟩ := (C62_names_distinct (ht i) ht').1 e
      exact ho ⟨h1.symm, h0 ▸ hk, h2.symm, i, hi, h3.symm, h4.symm⟩
    intro hm
    simp only [workerWrites, List.map_append, List.map_map, Function.comp_def, List.mem_append, List.mem_map, List.mem_range] at hm
    rcases hm with ⟨i, hi, e⟩ | ⟨i, hi, e⟩
    · exact no _ (.inl rfl) i hi e
    · exact no _ (.inr rfl) i hi e

/-- C62: a later run of the same class and length in which worker `i` ends in the same second replaces the file of worker `i`, whatever the two
ensemble sizes (and for `interaction` 0 and 3, say, even the class is the same). -/
theorem C62_same_second_overwrites {β : Type} {inter inter' : Int} (hi : inter ≠ 1 ∧ inter ≠ 2) (hi' : inter' ≠ 1 ∧ inter' ≠ 2) {l T T' : Nat}
    {t t' : Nat → Stamp} (ht' : ∀ i, (t' i).Valid) (entropy crit entropy' crit' : Nat → β) (D : Directory β) {i : Nat} (h' : i < T')
    (e : t' i = t i) :
    (workerWrites (classOfInteraction inter') l T' t' entropy' crit').foldl Directory.write
        ((workerWrites (classOfInteraction inter) l T t entropy crit).foldl Directory.write D)
        (fileName (classOfInteraction inter) .entropyOrder l (t i) (some i)) = some (entropy' i) := by
  have hc : classOfInteraction inter = classOfInteraction inter' := by
    simp only [classOfInteraction, if_neg hi.1, if_neg hi.2, if_neg hi'.1, if_neg hi'.2]
  have := ((C62_all_tables_survive (inter := inter') (l := l) ht' entropy' crit'
    ((workerWrites (classOfInteraction inter) l T t entropy crit).foldl Directory.write D) (List.Perm.refl _)).1 i h').1
  rw [← e]
  rw [hc] at this ⊢
  exact this

/-- Concrete names, for valid times: those of the recorded data of the repository and of a worker. -/
example : fileName .l0 .crossCheck 100 ⟨2021, 3, 29, 19, 23, 25⟩ none =
      "./data/SitePercolationL0__percolation_cross_check_data_L100_20210329_192325.txt" ∧
    fileName .l1 .entropyOrder 10 ⟨2021, 3, 29, 19, 21, 4⟩ (some 3) = "./data/SitePercolationL1__entropy_order_L10_20210329_192104_th3.txt" ∧
    Stamp.Valid ⟨2021, 3, 29, 19, 23, 25⟩ ∧ Stamp.Valid ⟨2021, 3, 29, 19, 21, 4⟩ := by
  refine ⟨by decide +kernel, by decide +kernel, by unfold Stamp.Valid; decide, by unfold Stamp.Valid; decide⟩

end SqPerc
