import Verif.Proof.Progress
import Verif.Model.Output
import Verif.Spec.Text
import Verif.Props.Obs
import Verif.Props.Files
import Verif.Proof.Merge
/-
Properties C66 and C67: the printed views.
-/
namespace SqPerc

variable {α : Type} {L : Nat} {env : Env α} {v : Variant} {S : Perc α} {A : Abs α}

/-! ### Reading numbers -/

theorem isNum_digit {n : Nat} {c : Char} (h : c ∈ Nat.toDigits 10 n) : isNum c = true := by
  simp [isNum, Nat.isDigit_of_mem_toDigits (by decide) (by decide) h]

theorem digit_ne {n : Nat} {c : Char} (h : c ∈ Nat.toDigits 10 n) : c ≠ '-' := by
  rintro rfl
  have := Nat.isDigit_of_mem_toDigits (by decide) (by decide) h
  revert this; decide

theorem intText_num (i : Int) : ∀ c ∈ intText i, isNum c = true := by
  cases i with
  | ofNat n => exact fun c h => isNum_digit h
  | negSucc n =>
    intro c h
    rcases List.mem_cons.1 h with rfl | h
    · decide
    · exact isNum_digit h

theorem intText_ne_nil (i : Int) : intText i ≠ [] := by
  cases i with
  | ofNat n => exact Nat.toDigits_ne_nil
  | negSucc n => exact List.cons_ne_nil _ _

theorem runValue_intText (i : Int) : runValue (intText i) = i := by
  cases i with
  | ofNat n =>
    have : ∀ ds : List Char, (∀ c ∈ ds, c ≠ '-') → runValue ds = (Nat.ofDigitChars 10 ds 0 : Int) := by
      intro ds h
      unfold runValue
      split
      · exact absurd rfl (h _ (by simp))
      · rfl
    show runValue (Nat.toDigits 10 n) = _
    rw [this _ fun c h => digit_ne h, Nat.ofDigitChars_ten_toDigits]
    rfl
  | negSucc n =>
    show -(Nat.ofDigitChars 10 (Nat.toDigits 10 (n + 1)) 0 : Int) = _
    rw [Nat.ofDigitChars_ten_toDigits]
    exact (Int.negSucc_eq n).symm ▸ by simp

theorem runs_num (t : List Char) (ht : ∀ c ∈ t, isNum c = true) (cur r : List Char) : runs cur (t ++ r) = runs (cur ++ t) r := by
  induction t generalizing cur with
  | nil => simp
  | cons a t ih =>
    rw [List.cons_append, runs, if_pos (ht a (by simp)), ih (fun c h => ht c (by simp [h])), List.append_assoc]; rfl

theorem runs_skip (w : List Char) (hw : ∀ c ∈ w, isNum c = false) (r : List Char) : runs [] (w ++ r) = runs [] r := by
  induction w with
  | nil => rfl
  | cons a w ih =>
    rw [List.cons_append, runs, if_neg (by simp [hw a (by simp)]), if_pos rfl, ih fun c h => hw c (by simp [h])]

/-- The text `t` shows the numbers `ns`, whatever follows. -/
def Shows (t : List Char) (ns : List Int) : Prop := ∀ r, numbers (t ++ r) = ns ++ numbers r

theorem Shows.numbers {t : List Char} {ns : List Int} (h : Shows t ns) : SqPerc.numbers t = ns := by
  have := h []
  simpa [SqPerc.numbers, runs] using this

theorem Shows.append {t t' : List Char} {ns ns' : List Int} (h : Shows t ns) (h' : Shows t' ns') : Shows (t ++ t') (ns ++ ns') := by
  intro r
  rw [List.append_assoc, h, h', List.append_assoc]

theorem Shows.skip {w : List Char} (hw : ∀ c ∈ w, isNum c = false) : Shows w [] := by
  intro r
  rw [SqPerc.numbers, runs_skip w hw]; rfl

theorem Shows.int (i : Int) {c : Char} (hc : isNum c = false) : Shows (intText i ++ [c]) [i] := by
  intro r
  have : runs [] (intText i ++ [c] ++ r) = intText i :: runs [] r := by
    rw [List.append_assoc, runs_num _ (intText_num i), List.nil_append, List.singleton_append, runs, if_neg (by simp [hc]),
      if_neg (intText_ne_nil i)]
  rw [SqPerc.numbers, this, List.map_cons, runValue_intText]; rfl

theorem Shows.flatMap {β : Type} {f : β → List Char} {g : β → List Int} (l : List β) (h : ∀ b ∈ l, Shows (f b) (g b)) :
    Shows (l.flatMap f) (l.flatMap g) := by
  induction l with
  | nil => exact fun r => rfl
  | cons b l ih =>
    rw [List.flatMap_cons, List.flatMap_cons]
    exact (h b (by simp)).append (ih fun x hx => h x (by simp [hx]))

theorem Shows.congr {t : List Char} {ns ns' : List Int} (h : Shows t ns) (e : ns = ns') : Shows t ns' := e ▸ h

theorem blanks_num (k : Nat) : ∀ c ∈ blanks k, isNum c = false := by
  intro c h
  rw [List.eq_of_mem_replicate h]; decide

theorem Shows.blanks (k : Nat) : Shows (blanks k) [] := Shows.skip (blanks_num k)

theorem Shows.right (w : Nat) (i : Int) {c : Char} (hc : isNum c = false) : Shows (fmtRight w (intText i) ++ [c]) [i] := by
  rw [fmtRight, List.append_assoc]
  exact (Shows.blanks _).append (Shows.int i hc)

theorem append_blanks_shows (i : Int) (k : Nat) {c : Char} (hc : isNum c = false) : Shows (intText i ++ (SqPerc.blanks k ++ [c])) [i] := by
  cases k with
  | zero => exact Shows.int i hc
  | succ k =>
    have : intText i ++ (SqPerc.blanks (k + 1) ++ [c]) = (intText i ++ [' ']) ++ (SqPerc.blanks k ++ [c]) := by
      simp [SqPerc.blanks, List.replicate_succ]
    rw [this]
    exact (Shows.int i (by decide)).append (Shows.skip fun a ha => by
      rcases List.mem_append.1 ha with h | h
      · exact blanks_num k a h
      · rw [List.mem_singleton.1 h]; exact hc)

theorem Shows.left (w : Nat) (i : Int) {c : Char} (hc : isNum c = false) : Shows (fmtLeft w (intText i) ++ [c]) [i] := by
  rw [fmtLeft, List.append_assoc]
  exact append_blanks_shows i _ hc

theorem Shows.centre (w : Nat) (i : Int) {c : Char} (hc : isNum c = false) : Shows (fmtCentre w (intText i) ++ [c]) [i] := by
  rw [fmtCentre, List.append_assoc, List.append_assoc]
  exact (Shows.blanks _).append (append_blanks_shows i _ hc)

/-! ### Lines -/

theorem fields_ne_nil (sep : Char) (t : List Char) : fields sep t ≠ [] := by
  cases t with
  | nil => exact List.cons_ne_nil _ _
  | cons c t =>
    rw [fields]
    split
    · exact List.cons_ne_nil _ _
    · split <;> exact List.cons_ne_nil _ _

theorem fields_append (sep : Char) (w r : List Char) (h : sep ∉ w) : fields sep (w ++ sep :: r) = w :: fields sep r := by
  induction w with
  | nil => rw [List.nil_append, fields, if_pos rfl]
  | cons a w ih =>
    rw [List.cons_append, fields, if_neg (fun e => h (by simp [e])), ih (fun hm => h (by simp [hm]))]

theorem lines_println (t r : List Char) (h : '\n' ∉ t) : lines (println t ++ r) = t :: lines r := by
  rw [println, List.append_assoc]
  exact fields_append _ _ _ h

theorem lines_flatMap {β : Type} (f : β → List Char) (l : List β) (r : List Char) (h : ∀ b ∈ l, '\n' ∉ f b) :
    lines ((l.flatMap fun b => println (f b)) ++ r) = l.map f ++ lines r := by
  induction l with
  | nil => rfl
  | cons b l ih =>
    rw [List.flatMap_cons, List.append_assoc, lines_println _ _ (h b (by simp)), ih fun x hx => h x (by simp [hx])]; rfl

theorem nl_intText (i : Int) : '\n' ∉ intText i := fun h => by
  have := intText_num i _ h
  revert this; decide

theorem nl_blanks (k : Nat) : '\n' ∉ blanks k := fun h => by
  have := List.eq_of_mem_replicate h
  revert this; decide

theorem nl_right (w : Nat) {t : List Char} (h : '\n' ∉ t) : '\n' ∉ fmtRight w t := by
  simp [fmtRight, nl_blanks, h]

theorem nl_left (w : Nat) {t : List Char} (h : '\n' ∉ t) : '\n' ∉ fmtLeft w t := by
  simp [fmtLeft, nl_blanks, h]

theorem nl_centre (w : Nat) {t : List Char} (h : '\n' ∉ t) : '\n' ∉ fmtCentre w t := by
  simp [fmtCentre, nl_blanks, h]

theorem nl_sep (l : List Nat) (k : Nat) : '\n' ∉ l.flatMap fun _ => List.replicate k '-' := by
  intro h
  obtain ⟨_, _, h⟩ := List.mem_flatMap.1 h
  have := List.eq_of_mem_replicate h
  revert this; decide

/-! ### `view_site_gids` and `view_relative_index` -/

theorem cell_lt {r c : Nat} (hr : r < L) (hc : c < L) : r * L + c < L * L := by
  have : r * L + L ≤ L * L := by rw [← Nat.succ_mul]; exact Nat.mul_le_mul_right _ hr
  omega

/-- One table row of `view_site_gids`. -/
def gidLine (L : Nat) (V : LV) (rr : Nat) : Text :=
  fmtRight 3 (intText rr) ++ " |".toList ++ (List.range L).flatMap fun cc => fmtRight 3 (intText (V.sg (rr * L + cc))) ++ "|".toList

/-- One table row of `view_relative_index`. -/
def relLine (L : Nat) (V : LV) (rr : Nat) : Text :=
  fmtRight 3 (intText rr) ++ " |".toList ++ (List.range L).flatMap fun cc =>
    fmtRight 2 (intText (V.sg (rr * L + cc))) ++ " ".toList ++ (V.rel (rr * L + cc)).relStr ++ "|".toList

theorem gidRow_mk (V : LV) {rr : Nat} (h : rr < L) : (mkLat L V).gidRow rr = .ok (println (gidLine L V rr)) := by
  have : ∀ cc ∈ List.range L, (mkLat L V).gidCell rr cc = .ok (fmtRight 3 (intText (V.sg (rr * L + cc))) ++ "|".toList) := by
    intro cc hc
    show ((mkLat L V).getSite (rr * L + cc) >>= _) = _
    rw [getSite_mk (cell_lt h (List.mem_range.1 hc))]; rfl
  rw [Lattice.gidRow]
  show (do let cells ← (List.range L).mapM _; return _) = _
  rw [mapM_ok _ _ _ this]; rfl

theorem relRow_mk (V : LV) {rr : Nat} (h : rr < L) : (mkLat L V).relRow rr = .ok (println (relLine L V rr)) := by
  have : ∀ cc ∈ List.range L, (mkLat L V).relCell rr cc = .ok (fmtRight 2 (intText (V.sg (rr * L + cc))) ++ " ".toList ++
      (V.rel (rr * L + cc)).relStr ++ "|".toList) := by
    intro cc hc
    show ((mkLat L V).getSite (rr * L + cc) >>= _) = _
    rw [getSite_mk (cell_lt h (List.mem_range.1 hc))]; rfl
  rw [Lattice.relRow]
  show (do let cells ← (List.range L).mapM _; return _) = _
  rw [mapM_ok _ _ _ this]; rfl

/-- The seven lines of `viewHead`. -/
def headLines : List Text := ["Upper Left corner is <0,0>".toList, "<x,y> means relative index".toList,
  "90 degree Clockwise rotated Coordinate system".toList, "y value increases as we go rightward. Like columns".toList,
  "x value increases as we go downward . Like rows".toList, "Format 'gid<x,y>'".toList, "<--Relative index - VIEW BEGIN-->".toList]

theorem viewHead_eq : Lattice.viewHead = headLines.flatMap fun t => println t := by decide +kernel

theorem headLines_nl : ∀ t ∈ headLines, '\n' ∉ t := by decide +kernel

theorem lines_last {t : List Char} (h : '\n' ∉ t) : lines (println t) = [t, []] := by
  have := lines_println t [] h
  rwa [List.append_nil] at this

/-- The text of `view_site_gids` and `view_relative_index` with heading `hd` and rows `row r`. -/
def tableText (L k : Nat) (hd : Text) (row : Nat → Text) : Text :=
  Lattice.viewHead ++ println ((List.range L).flatMap fun _ => List.replicate k '-') ++ println hd
    ++ println ((List.range L).flatMap fun _ => List.replicate k '-') ++ ((List.range L).map fun r => println (row r)).flatten
    ++ println ((List.range L).flatMap fun _ => List.replicate k '-') ++ println "<--Relative index - VIEW END-->".toList

theorem table_lines (k : Nat) {hd : Text} {row : Nat → Text} (h1 : '\n' ∉ hd) (h2 : ∀ r ∈ List.range L, '\n' ∉ row r) :
    (lines (tableText L k hd row)).length = L + 13 ∧ (lines (tableText L k hd row))[8]? = some hd ∧
      ∀ r < L, (lines (tableText L k hd row))[10 + r]? = some (row r) := by
  have : ∃ a, lines (tableText L k hd row) = headLines ++ a :: hd :: a :: ((List.range L).map row ++
      [a, "<--Relative index - VIEW END-->".toList, []]) := by
    refine ⟨(List.range L).flatMap fun _ => List.replicate k '-', ?_⟩
    simp only [tableText, List.append_assoc]
    rw [viewHead_eq, lines_flatMap _ _ _ headLines_nl, List.map_id', lines_println _ _ (nl_sep _ _), lines_println _ _ h1,
      lines_println _ _ (nl_sep _ _), ← List.flatMap_def, lines_flatMap _ _ _ h2, lines_println _ _ (nl_sep _ _), lines_last (by decide +kernel)]
  obtain ⟨a, e⟩ := this
  rw [e]
  refine ⟨by simp [headLines], rfl, fun r hr => ?_⟩
  rw [List.getElem?_append_right (by simp [headLines]; omega)]
  have : 10 + r - headLines.length = r + 3 := by simp [headLines]; omega
  rw [this, List.getElem?_cons_succ, List.getElem?_cons_succ, List.getElem?_cons_succ, List.getElem?_append_left (by simpa using hr)]
  simp [hr]

theorem gidLine_nl (V : LV) (rr : Nat) : '\n' ∉ gidLine L V rr := by
  simp [gidLine, nl_right, nl_intText]

theorem nl_rel (i : Idx) : '\n' ∉ i.relStr := by
  simp [Idx.relStr, nl_right, nl_intText]

theorem relLine_nl (V : LV) (rr : Nat) : '\n' ∉ relLine L V rr := by
  simp [relLine, nl_right, nl_intText, nl_rel]

theorem Shows.rel (i : Idx) : Shows i.relStr [i.c1, i.c2] := by
  have h := (Shows.skip (w := "<".toList) (by decide)).append ((Shows.right 3 i.c1 (c := ',') (by decide)).append
    (Shows.right 3 i.c2 (c := '>') (by decide)))
  simp only [List.append_assoc, List.nil_append, List.singleton_append] at h
  simpa [Idx.relStr] using h

theorem gidLine_shows (V : LV) (rr : Nat) : Shows (gidLine L V rr) ((rr : Int) :: (List.range L).map fun c => V.sg (rr * L + c)) := by
  have h1 : Shows (fmtRight 3 (intText rr) ++ " |".toList) [(rr : Int)] := by
    have := (Shows.right 3 (rr : Int) (c := ' ') (by decide)).append (Shows.skip (w := ['|']) (by decide))
    simpa using this
  have h2 := Shows.flatMap (List.range L) (f := fun cc => fmtRight 3 (intText (V.sg (rr * L + cc))) ++ "|".toList)
    (g := fun cc => [V.sg (rr * L + cc)]) fun cc _ => Shows.right 3 _ (by decide)
  refine (h1.append h2).congr ?_
  rw [List.singleton_append, ← List.map_eq_flatMap]

theorem relLine_shows (V : LV) (rr : Nat) : Shows (relLine L V rr) ((rr : Int) :: (List.range L).flatMap fun c =>
    [V.sg (rr * L + c), (V.rel (rr * L + c)).c1, (V.rel (rr * L + c)).c2]) := by
  have h1 : Shows (fmtRight 3 (intText rr) ++ " |".toList) [(rr : Int)] := by
    have := (Shows.right 3 (rr : Int) (c := ' ') (by decide)).append (Shows.skip (w := ['|']) (by decide))
    simpa using this
  have h2 := Shows.flatMap (List.range L) (f := fun cc => fmtRight 2 (intText (V.sg (rr * L + cc))) ++ " ".toList ++
      (V.rel (rr * L + cc)).relStr ++ "|".toList)
    (g := fun c => [V.sg (rr * L + c), (V.rel (rr * L + c)).c1, (V.rel (rr * L + c)).c2]) fun cc _ =>
      ((Shows.right 2 _ (c := ' ') (by decide)).append (Shows.rel _)).append (Shows.skip (w := ['|']) (by decide))
  exact h1.append h2

theorem Sim.rel (M : Sim env L S A) {s : Nat} (hs : s < L * L) : ∃ st, S.lat.getSite s = .ok st ∧ st.gid = A.V.sg s ∧ st.rel = A.V.rel s := by
  rw [M.lat]
  exact ⟨_, getSite_mk hs, rfl, rfl⟩

theorem viewSiteGids_mk (V : LV) : (mkLat L V).viewSiteGids = .ok (tableText L 5
    (fmtRight 5 "|".toList ++ (List.range L).flatMap fun cc : Nat => fmtLeft 3 (intText cc) ++ fmtRight 1 "|".toList) (gidLine L V)) := by
  rw [Lattice.viewSiteGids]
  show (do let rows ← (List.range L).mapM _; return _) = _
  rw [mapM_ok _ _ _ fun r hr => gidRow_mk V (List.mem_range.1 hr)]; rfl

theorem viewRelativeIndex_mk (V : LV) : (mkLat L V).viewRelativeIndex = .ok (tableText L 14
    (fmtRight 5 "|".toList ++ (List.range L).flatMap fun cc : Nat => fmtLeft 6 (intText cc) ++ fmtRight 7 "|".toList) (relLine L V)) := by
  rw [Lattice.viewRelativeIndex]
  show (do let rows ← (List.range L).mapM _; return _) = _
  rw [mapM_ok _ _ _ fun r hr => relRow_mk V (List.mem_range.1 hr)]; rfl

theorem header_shows (w : Nat) (t : Text) (ht : ∃ c r, t = c :: r ∧ isNum c = false ∧ ∀ x ∈ r, isNum x = false) :
    Shows (fmtRight 5 "|".toList ++ (List.range L).flatMap fun cc : Nat => fmtLeft w (intText cc) ++ t) ((List.range L).map fun c : Nat => (c : Int)) := by
  obtain ⟨c, r, rfl, hc, hr⟩ := ht
  have h2 := Shows.flatMap (List.range L) (f := fun cc : Nat => fmtLeft w (intText cc) ++ c :: r) (g := fun cc : Nat => [(cc : Int)])
    fun cc _ => by
      have := (Shows.left w (cc : Int) hc).append (Shows.skip hr)
      rwa [List.append_assoc, List.singleton_append, List.append_nil] at this
  refine ((Shows.skip (w := fmtRight 5 "|".toList) (by decide)).append h2).congr ?_
  rw [List.nil_append, ← List.map_eq_flatMap]

/-- C66: the table of `viewLattice(4)`.  In every reachable state the call succeeds; the text has `L + 13` lines; line 8 numbers the columns; line
`10 + r` shows the row number `r` and then the group ids of the `L` sites of row `r`, from left to right. -/
theorem C66_gids (h : Reach env v L S) : ∃ text, S.viewLattice 4 = .ok text ∧ (lines text).length = L + 13 ∧
    (∃ line, (lines text)[8]? = some line ∧ numbers line = (List.range L).map fun c : Nat => (c : Int)) ∧
    ∃ g : Nat → Int, (∀ s < L * L, S.lat.getSiteGid s = .ok (g s)) ∧
      ∀ r < L, ∃ line, (lines text)[10 + r]? = some line ∧ numbers line = (r : Int) :: (List.range L).map fun c => g (r * L + c) := by
  obtain ⟨hL, A, M, hA⟩ := h.sim
  have e : S.viewLattice 4 = S.lat.viewSiteGids := rfl
  obtain ⟨h1, h2, h3⟩ := table_lines (L := L) 5
    (hd := fmtRight 5 "|".toList ++ (List.range L).flatMap fun cc : Nat => fmtLeft 3 (intText cc) ++ fmtRight 1 "|".toList)
    (row := gidLine L A.V) (by simp [nl_left, nl_intText, nl_right]) fun r _ => gidLine_nl _ _
  refine ⟨_, by rw [e, M.lat]; exact viewSiteGids_mk A.V, h1, ⟨_, h2, ?_⟩, A.V.sg, fun s hs => M.siteGid hs, fun r hr => ⟨_, h3 r hr, ?_⟩⟩
  · exact (header_shows 3 _ ⟨'|', [], rfl, by decide, by simp⟩).numbers
  · exact (gidLine_shows A.V r).numbers

/-- C66: the table of `viewLattice(3)`.  As for `viewLattice(4)`, but every entry shows the group id and the two components of the relative index. -/
theorem C66_relative (h : Reach env v L S) : ∃ text, S.viewLattice 3 = .ok text ∧ (lines text).length = L + 13 ∧
    (∃ line, (lines text)[8]? = some line ∧ numbers line = (List.range L).map fun c : Nat => (c : Int)) ∧
    ∃ (g : Nat → Int) (x : Nat → Idx), (∀ s < L * L, ∃ st, S.lat.getSite s = .ok st ∧ st.gid = g s ∧ st.rel = x s) ∧
      ∀ r < L, ∃ line, (lines text)[10 + r]? = some line ∧ numbers line = (r : Int) :: (List.range L).flatMap fun c =>
        [g (r * L + c), (x (r * L + c)).c1, (x (r * L + c)).c2] := by
  obtain ⟨hL, A, M, hA⟩ := h.sim
  have e : S.viewLattice 3 = S.lat.viewRelativeIndex := rfl
  obtain ⟨h1, h2, h3⟩ := table_lines (L := L) 14
    (hd := fmtRight 5 "|".toList ++ (List.range L).flatMap fun cc : Nat => fmtLeft 6 (intText cc) ++ fmtRight 7 "|".toList)
    (row := relLine L A.V) (by simp [nl_left, nl_intText, nl_right]) fun r _ => relLine_nl _ _
  refine ⟨_, by rw [e, M.lat]; exact viewRelativeIndex_mk A.V, h1, ⟨_, h2, ?_⟩, A.V.sg, A.V.rel, fun s hs => M.rel hs, fun r hr => ⟨_, h3 r hr, ?_⟩⟩
  · exact (header_shows 6 _ ⟨' ', "     |".toList, rfl, by decide, by decide⟩).numbers
  · exact (relLine_shows A.V r).numbers

theorem flatMap_three_inj {l : List Nat} {a b c a' b' c' : Nat → Int}
    (h : (l.flatMap fun x => [a x, b x, c x]) = l.flatMap fun x => [a' x, b' x, c' x]) : ∀ x ∈ l, a x = a' x ∧ b x = b' x ∧ c x = c' x := by
  induction l with
  | nil => simp
  | cons y l ih =>
    simp only [List.flatMap_cons, List.cons_append, List.nil_append, List.cons.injEq] at h
    obtain ⟨h1, h2, h3, h⟩ := h
    intro x hx
    rcases List.mem_cons.1 hx with rfl | hx
    · exact ⟨h1, h2, h3⟩
    · exact ih h x hx

theorem split_cell {s : Nat} (hs : s < L * L) : ∃ r < L, ∃ c < L, r * L + c = s := by
  have hL : 0 < L := by
    rcases Nat.eq_zero_or_pos L with rfl | h
    · simp at hs
    · exact h
  exact ⟨s / L, Nat.div_lt_of_lt_mul hs, s % L, Nat.mod_lt _ hL, by rw [Nat.mul_comm]; exact Nat.div_add_mod s L⟩

/-- C66: two objects (of any classes, lengths and histories) print the same table of group ids exactly if the lattices have the same length and
all sites have the same group id. -/
theorem C66_gids_determined {β : Type} {env' : Env β} {v' : Variant} {L' : Nat} {S' : Perc β} (h : Reach env v L S) (h' : Reach env' v' L' S') :
    S.viewLattice 4 = S'.viewLattice 4 ↔ L = L' ∧ ∀ s < L * L, S.lat.getSiteGid s = S'.lat.getSiteGid s := by
  constructor
  · intro e
    obtain ⟨t, ht, hl, _, g, hg, hr⟩ := C66_gids h
    obtain ⟨t', ht', hl', _, g', hg', hr'⟩ := C66_gids h'
    rw [ht, ht'] at e
    cases e
    obtain rfl : L = L' := by omega
    refine ⟨rfl, fun s hs => ?_⟩
    obtain ⟨r, hrL, c, hc, rfl⟩ := split_cell hs
    obtain ⟨l, h1, h2⟩ := hr r hrL
    obtain ⟨l', h1', h2'⟩ := hr' r hrL
    rw [h1] at h1'
    cases h1'
    rw [h2] at h2'
    rw [hg _ hs, hg' _ hs, List.map_inj_left.1 (List.cons.inj h2').2 c (List.mem_range.2 hc)]
  · rintro ⟨rfl, hs⟩
    obtain ⟨hL, A, M, hA⟩ := h.sim
    obtain ⟨_, A', M', hA'⟩ := h'.sim
    have e : S.viewLattice 4 = S.lat.viewSiteGids := rfl
    have e' : S'.viewLattice 4 = S'.lat.viewSiteGids := rfl
    rw [e, e', M.lat, M'.lat, viewSiteGids_mk, viewSiteGids_mk]
    have hrow : ∀ r ∈ List.range L, println (gidLine L A.V r) = println (gidLine L A'.V r) := by
      intro r hr
      have : ∀ c ∈ List.range L, (fmtRight 3 (intText (A.V.sg (r * L + c))) ++ "|".toList) = fmtRight 3 (intText (A'.V.sg (r * L + c))) ++ "|".toList := by
        intro c hc
        have hlt := cell_lt (List.mem_range.1 hr) (List.mem_range.1 hc)
        have := hs _ hlt
        rw [M.siteGid hlt, M'.siteGid hlt] at this
        rw [Except.ok.inj this]
      rw [gidLine, gidLine, List.flatMap_def, List.flatMap_def, List.map_inj_left.2 this]
    rw [tableText, tableText, List.map_inj_left.2 hrow]

/-- C66: two objects print the same table of relative indices exactly if the lattices have the same length and all sites have the same group id
and the same relative index. -/
theorem C66_relative_determined {β : Type} {env' : Env β} {v' : Variant} {L' : Nat} {S' : Perc β} (h : Reach env v L S) (h' : Reach env' v' L' S') :
    S.viewLattice 3 = S'.viewLattice 3 ↔ L = L' ∧ ∀ s < L * L, ∃ a b, S.lat.getSite s = .ok a ∧ S'.lat.getSite s = .ok b ∧ a.gid = b.gid ∧ a.rel = b.rel := by
  constructor
  · intro e
    obtain ⟨t, ht, hl, _, g, x, hg, hr⟩ := C66_relative h
    obtain ⟨t', ht', hl', _, g', x', hg', hr'⟩ := C66_relative h'
    rw [ht, ht'] at e
    cases e
    obtain rfl : L = L' := by omega
    refine ⟨rfl, fun s hs => ?_⟩
    obtain ⟨a, ha, ha1, ha2⟩ := hg s hs
    obtain ⟨b, hb, hb1, hb2⟩ := hg' s hs
    refine ⟨a, b, ha, hb, ?_⟩
    rw [ha1, ha2, hb1, hb2]
    obtain ⟨r, hrL, c, hc, rfl⟩ := split_cell hs
    obtain ⟨l, h1, h2⟩ := hr r hrL
    obtain ⟨l', h1', h2'⟩ := hr' r hrL
    rw [h1] at h1'
    cases h1'
    rw [h2] at h2'
    obtain ⟨e1, e2, e3⟩ := flatMap_three_inj (List.cons.inj h2').2 c (List.mem_range.2 hc)
    refine ⟨e1, ?_⟩
    cases hx : x (r * L + c); cases hx' : x' (r * L + c)
    rw [hx, hx'] at e2 e3
    simp only at e2 e3
    rw [e2, e3]
  · rintro ⟨rfl, hs⟩
    obtain ⟨hL, A, M, hA⟩ := h.sim
    obtain ⟨_, A', M', hA'⟩ := h'.sim
    have e : S.viewLattice 3 = S.lat.viewRelativeIndex := rfl
    have e' : S'.viewLattice 3 = S'.lat.viewRelativeIndex := rfl
    rw [e, e', M.lat, M'.lat, viewRelativeIndex_mk, viewRelativeIndex_mk]
    have hrow : ∀ r ∈ List.range L, println (relLine L A.V r) = println (relLine L A'.V r) := by
      intro r hr
      have : ∀ c ∈ List.range L, (fmtRight 2 (intText (A.V.sg (r * L + c))) ++ " ".toList ++ (A.V.rel (r * L + c)).relStr ++ "|".toList) =
          fmtRight 2 (intText (A'.V.sg (r * L + c))) ++ " ".toList ++ (A'.V.rel (r * L + c)).relStr ++ "|".toList := by
        intro c hc
        have hlt := cell_lt (List.mem_range.1 hr) (List.mem_range.1 hc)
        obtain ⟨a, b, ha, hb, h1, h2⟩ := hs _ hlt
        rw [M.lat, getSite_mk hlt] at ha
        rw [M'.lat, getSite_mk hlt] at hb
        cases ha; cases hb
        have h1 : A.V.sg (r * L + c) = A'.V.sg (r * L + c) := h1
        have h2 : A.V.rel (r * L + c) = A'.V.rel (r * L + c) := h2
        rw [h1, h2]
      rw [relLine, relLine, List.flatMap_def, List.flatMap_def, List.map_inj_left.2 this]
    rw [tableText, tableText, List.map_inj_left.2 hrow]

/-! ### `view` -/

theorem commaSep_quoted_shows {β : Type} {f : β → Text} {g : β → List Int} (l : List β) (h : ∀ b ∈ l, Shows (f b) (g b)) :
    Shows (strListText (l.map f)) (l.flatMap g) := by
  have key : Shows (commaSep ((l.map f).map fun t => "'".toList ++ t ++ "'".toList)) (l.flatMap g) := by
    induction l with
    | nil => exact fun r => rfl
    | cons b l ih =>
      have ih := ih fun x hx => h x (by simp [hx])
      have hb : Shows ("'".toList ++ f b ++ "'".toList) (g b) :=
        ((((Shows.skip (w := "'".toList) (by decide)).append (h b (by simp))).append (Shows.skip (w := "'".toList) (by decide)))).congr (by simp)
      cases l with
      | nil => simpa [commaSep] using hb
      | cons c l =>
        have := (hb.append (Shows.skip (w := ", ".toList) (by decide))).append ih
        exact this.congr (by simp)
  exact (((Shows.skip (w := "[".toList) (by decide)).append key).append (Shows.skip (w := "]".toList) (by decide))).congr (by simp)

/-- The numbers of a site in the three formats of `get_str`. -/
def siteNums (fmt : Int) (gid id row col : Int) : List Int := if fmt = 1 then [gid, id] else if fmt = 2 then [id, row, col] else [row, col]

theorem Shows.centred3 (a b c : Int) : Shows (fmtCentre 5 (intText a) ++ "(".toList ++ fmtCentre 5 (intText b) ++ ",".toList ++
    fmtCentre 5 (intText c) ++ ")".toList) [a, b, c] := by
  have := ((Shows.centre 5 a (c := '(') (by decide)).append (Shows.centre 5 b (c := ',') (by decide))).append (Shows.centre 5 c (c := ')') (by decide))
  simpa [List.append_assoc] using this

theorem Shows.centred2 (a b : Int) : Shows ("(".toList ++ fmtCentre 5 (intText a) ++ ",".toList ++ fmtCentre 5 (intText b) ++ ")".toList) [a, b] := by
  have := ((Shows.skip (w := "(".toList) (by decide)).append (Shows.centre 5 a (c := ',') (by decide))).append (Shows.centre 5 b (c := ')') (by decide))
  simpa [List.append_assoc] using this

theorem Shows.centred2' (a b : Int) : Shows ("(".toList ++ fmtCentre 5 (intText a) ++ ", ".toList ++ fmtCentre 5 (intText b) ++ ")".toList) [a, b] := by
  have := (((Shows.skip (w := "(".toList) (by decide)).append (Shows.centre 5 a (c := ',') (by decide))).append
    (Shows.skip (w := [' ']) (by decide))).append (Shows.centre 5 b (c := ')') (by decide))
  simpa [List.append_assoc] using this

theorem Site.getStr_shows (s : Site) (fmt : Int) : Shows (s.getStr fmt) (siteNums fmt s.gid s.id s.index.c1 s.index.c2) := by
  unfold Site.getStr siteNums
  split
  · exact Shows.centred2' _ _
  · split
    · exact Shows.centred3 _ _ _
    · exact Shows.centred2 _ _

theorem Bond.getStr_shows (b : Bond) (fmt : Int) : Shows (b.getStr fmt) (siteNums fmt b.gid b.id b.row b.col) := by
  unfold Bond.getStr siteNums
  split
  · exact Shows.centred2' _ _
  · split
    · exact Shows.centred3 _ _ _
    · have hw : ∀ c ∈ (if b.type = 0 then "h" else "v").toList ++ [')'], isNum c = false := by
        split <;> decide
      have := (((Shows.skip (w := "(".toList) (by decide)).append (Shows.centre 5 (b.row : Int) (c := ',') (by decide))).append
        (Shows.centre 5 (b.col : Int) (c := ',') (by decide))).append (Shows.skip hw)
      simpa [List.append_assoc] using this

theorem nl_siteStr (s : Site) (fmt : Int) : '\n' ∉ s.getStr fmt := by
  unfold Site.getStr
  split
  · simp [nl_centre, nl_intText]
  · split <;> simp [nl_centre, nl_intText]

theorem nl_bondStr (b : Bond) (fmt : Int) : '\n' ∉ b.getStr fmt := by
  unfold Bond.getStr
  split
  · simp [nl_centre, nl_intText]
  · split
    · simp [nl_centre, nl_intText]
    · split <;> simp [nl_centre, nl_intText]

theorem nl_strList (l : List Text) (h : ∀ t ∈ l, '\n' ∉ t) : '\n' ∉ strListText l := by
  have : '\n' ∉ commaSep (l.map fun t => "'".toList ++ t ++ "'".toList) := by
    induction l with
    | nil => simp [commaSep]
    | cons t l ih =>
      have ih := ih fun x hx => h x (by simp [hx])
      have ht : '\n' ∉ "'".toList ++ t ++ "'".toList := by simp [h t (by simp)]
      cases l with
      | nil => simpa [commaSep] using ht
      | cons c l =>
        show '\n' ∉ ("'".toList ++ t ++ "'".toList) ++ ", ".toList ++ commaSep _
        rw [List.mem_append, List.mem_append]
        rintro ((h1 | h1) | h1)
        · exact ht h1
        · revert h1; decide
        · exact ih h1
  rw [strListText, List.mem_append, List.mem_append]
  rintro ((h1 | h1) | h1)
  · revert h1; decide
  · exact this h1
  · revert h1; decide

/-- The numbers of the sites and horizontal bonds of row `r` in format `fmt`: for each column those of the site, then those of the bond. -/
def rowNums (L : Nat) (fmt : Int) (sg bg : Nat → Int) (r : Nat) : List Int :=
  (List.range L).flatMap fun c => siteNums fmt (sg (r * L + c)) (r * L + c : Nat) r c ++ siteNums fmt (bg (r * L + c)) (r * L + c : Nat) r c

/-- The numbers of the vertical bonds of row `r`. -/
def rowVNums (L : Nat) (fmt : Int) (bg : Nat → Int) (r : Nat) : List Int :=
  (List.range L).flatMap fun c => siteNums fmt (bg (r * L + c + L * L)) (r * L + c + L * L : Nat) r c

theorem cell_div {r c : Nat} (hc : c < L) : (r * L + c) / L = r ∧ (r * L + c) % L = c := by
  have hL : 0 < L := by omega
  rw [Nat.mul_comm]
  exact ⟨by rw [Nat.mul_add_div hL, Nat.div_eq_of_lt hc, Nat.add_zero], by rw [Nat.mul_add_mod, Nat.mod_eq_of_lt hc]⟩

theorem mkSite_shows (V : LV) {r c : Nat} (hc : c < L) (fmt : Int) :
    Shows ((mkSite L V (r * L + c)).getStr fmt) (siteNums fmt (V.sg (r * L + c)) (r * L + c : Nat) r c) := by
  refine (Site.getStr_shows _ fmt).congr ?_
  show siteNums fmt (V.sg (r * L + c)) (r * L + c : Nat) ((r * L + c) / L : Nat) ((r * L + c) % L : Nat) = _
  rw [(cell_div hc).1, (cell_div hc).2]

theorem mkBond_shows (V : LV) {r c : Nat} (hr : r < L) (hc : c < L) (fmt : Int) :
    Shows ((mkBond L V (r * L + c)).getStr fmt) (siteNums fmt (V.bg (r * L + c)) (r * L + c : Nat) r c) := by
  refine (Bond.getStr_shows _ fmt).congr ?_
  show siteNums fmt (V.bg (r * L + c)) (r * L + c : Nat) ((r * L + c) % (L * L) / L : Nat) ((r * L + c) % (L * L) % L : Nat) = _
  rw [Nat.mod_eq_of_lt (cell_lt hr hc), (cell_div hc).1, (cell_div hc).2]

theorem mkVBond_shows (V : LV) {r c : Nat} (hr : r < L) (hc : c < L) (fmt : Int) :
    Shows ((mkBond L V (r * L + c + L * L)).getStr fmt) (siteNums fmt (V.bg (r * L + c + L * L)) (r * L + c + L * L : Nat) r c) := by
  refine (Bond.getStr_shows _ fmt).congr ?_
  show siteNums fmt (V.bg (r * L + c + L * L)) (r * L + c + L * L : Nat) ((r * L + c + L * L) % (L * L) / L : Nat)
    ((r * L + c + L * L) % (L * L) % L : Nat) = _
  rw [Nat.add_mod_right, Nat.mod_eq_of_lt (cell_lt hr hc), (cell_div hc).1, (cell_div hc).2]

/-- One entry of the row of sites and horizontal bonds. -/
def cellText (L : Nat) (V : LV) (fmt : Int) (r c : Nat) : Text :=
  (mkSite L V (r * L + c)).getStr fmt ++ blanks (((mkBond L V (r * L + c)).getStr fmt).length - ((mkSite L V (r * L + c)).getStr fmt).length)
    ++ "  ".toList ++ (mkBond L V (r * L + c)).getStr fmt

/-- One entry of the row of vertical bonds. -/
def cellVText (L : Nat) (V : LV) (fmt : Int) (r c : Nat) : Text :=
  (mkBond L V (r * L + c + L * L)).getStr fmt ++ "  ".toList ++ blanks ((mkBond L V (r * L + c + L * L)).getStr fmt).length

theorem getRowStr_mk (V : LV) (fmt : Int) {r : Nat} (hr : r < L) : (mkLat L V).getRowStr r fmt = .ok ((List.range L).map (cellText L V fmt r)) := by
  refine mapM_ok _ _ _ fun c hc => ?_
  have hlt := cell_lt hr (List.mem_range.1 hc)
  show ((mkLat L V).getSite (r * L + c) >>= fun s => (mkLat L V).getBond (r * L + c) >>= _) = _
  rw [getSite_mk hlt, getBond_mk (by omega)]; rfl

theorem getRowVStr_mk (V : LV) (fmt : Int) {r : Nat} (hr : r < L) : (mkLat L V).getRowVStr r fmt = .ok ((List.range L).map (cellVText L V fmt r)) := by
  refine mapM_ok _ _ _ fun c hc => ?_
  have hlt := cell_lt hr (List.mem_range.1 hc)
  show ((mkLat L V).getBond (r * L + c + L ^ 2) >>= _) = _
  rw [Nat.pow_two, getBond_mk (by omega)]; rfl

theorem cellText_shows (V : LV) (fmt : Int) {r : Nat} (hr : r < L) : Shows (strListText ((List.range L).map (cellText L V fmt r)))
    (rowNums L fmt V.sg V.bg r) := by
  refine commaSep_quoted_shows _ fun c hc => ?_
  have hc := List.mem_range.1 hc
  exact ((((mkSite_shows V hc fmt).append (Shows.blanks _)).append (Shows.skip (w := "  ".toList) (by decide))).append
    (mkBond_shows V hr hc fmt)).congr (by simp)

theorem cellVText_shows (V : LV) (fmt : Int) {r : Nat} (hr : r < L) : Shows (strListText ((List.range L).map (cellVText L V fmt r)))
    (rowVNums L fmt V.bg r) := by
  refine commaSep_quoted_shows _ fun c hc => ?_
  have hc := List.mem_range.1 hc
  exact (((mkVBond_shows V hr hc fmt).append (Shows.skip (w := "  ".toList) (by decide))).append (Shows.blanks _)).congr (by simp)

theorem lines_flatMap3 {β : Type} (f g k : β → List Char) (l : List β) (r : List Char) (hf : ∀ b ∈ l, '\n' ∉ f b) (hg : ∀ b ∈ l, '\n' ∉ g b)
    (hk : ∀ b ∈ l, '\n' ∉ k b) :
    lines ((l.flatMap fun b => println (f b) ++ println (g b) ++ println (k b)) ++ r) = (l.flatMap fun b => [f b, g b, k b]) ++ lines r := by
  induction l with
  | nil => rfl
  | cons b l ih =>
    rw [List.flatMap_cons, List.flatMap_cons]
    simp only [List.append_assoc]
    rw [lines_println _ _ (hf b (by simp)), lines_println _ _ (hg b (by simp)), lines_println _ _ (hk b (by simp))]
    have := ih (fun x hx => hf x (by simp [hx])) (fun x hx => hg x (by simp [hx])) (fun x hx => hk x (by simp [hx]))
    simp only [List.append_assoc] at this
    rw [this]; rfl

theorem getElem?_flatMap3 {β : Type} (f g k : Nat → β) (n : Nat) (r : List β) {i : Nat} (hi : i < n) :
    (((List.range n).flatMap fun b => [f b, g b, k b]) ++ r)[3 * i]? = some (f i) ∧
      (((List.range n).flatMap fun b => [f b, g b, k b]) ++ r)[3 * i + 1]? = some (g i) := by
  induction n generalizing r with
  | zero => omega
  | succ n ih =>
    rw [List.range_succ, List.flatMap_append, List.append_assoc]
    rcases Nat.lt_succ_iff_lt_or_eq.1 hi with h | rfl
    · exact ih _ h
    · have hl : ((List.range i).flatMap fun b => [f b, g b, k b]).length = 3 * i := by
        clear ih hi
        induction i with
        | zero => rfl
        | succ m ih => rw [List.range_succ, List.flatMap_append, List.length_append, ih]; simp; omega
      constructor
      · rw [List.getElem?_append_right (by omega), hl, Nat.sub_self]; rfl
      · rw [List.getElem?_append_right (by omega), hl, Nat.add_sub_cancel_left]; rfl

/-- The text of `view`. -/
def viewTextOf (L : Nat) (V : LV) (fmt : Int) : Text :=
  println "format : ".toList ++ println "{site}           {horizontal bond}".toList ++
    println "{vertical bond}  {               }".toList ++ println "The lattice : ".toList ++ println "<--VIEW BEGIN-->".toList ++
    (mkLat L V).rowSeparator 34 ++ ((List.range L).map fun r => println (strListText ((List.range L).map (cellText L V fmt r))) ++
    println (strListText ((List.range L).map (cellVText L V fmt r))) ++ (mkLat L V).rowSeparator 34).flatten ++
    println "<--VIEW END-->".toList

/-- C66: `viewLattice` with the remaining formats.  In every reachable state the call succeeds; line `6 + 3 r` shows, for the columns from left to
right, the site and the horizontal bond of row `r`, line `7 + 3 r` the vertical bonds: group id and id in format 1, id, row and column in format 2,
row and column in all others. -/
theorem C66_view (h : Reach env v L S) (fmt : Int) (h0 : 0 ≤ fmt) (h3 : fmt ≠ 3) (h4 : fmt ≠ 4) :
    ∃ text, S.viewLattice fmt = .ok text ∧ (lines text).length = 3 * L + 8 ∧
    ∃ sg bg : Nat → Int, (∀ s < L * L, S.lat.getSiteGid s = .ok (sg s)) ∧ (∀ b < 2 * (L * L), S.lat.getBondGid b = .ok (bg b)) ∧
      ∀ r < L, ∃ a b, (lines text)[6 + 3 * r]? = some a ∧ (lines text)[7 + 3 * r]? = some b ∧
        numbers a = rowNums L fmt sg bg r ∧ numbers b = rowVNums L fmt bg r := by
  obtain ⟨hL, A, M, hA⟩ := h.sim
  have e : S.viewLattice fmt = S.lat.view fmt := by
    rw [Perc.viewLattice, if_neg (by omega), if_neg h3, if_neg h4]
  have er : ∀ r ∈ List.range L, (mkLat L A.V).viewRow fmt r = .ok (println (strListText ((List.range L).map (cellText L A.V fmt r))) ++
      println (strListText ((List.range L).map (cellVText L A.V fmt r))) ++ (mkLat L A.V).rowSeparator 34) := by
    intro r hr
    rw [Lattice.viewRow, getRowStr_mk A.V fmt (List.mem_range.1 hr)]
    show ((mkLat L A.V).getRowVStr r fmt >>= _) = _
    rw [getRowVStr_mk A.V fmt (List.mem_range.1 hr)]; rfl
  have ev : (mkLat L A.V).view fmt = .ok (viewTextOf L A.V fmt) := by
    rw [Lattice.view]
    show (do let rows ← (List.range L).mapM _; return _) = _
    rw [mapM_ok _ _ _ er]; rfl
  have hl : ∃ p q, p.length = 6 ∧ q.length = 2 ∧ lines (viewTextOf L A.V fmt) = p ++ ((List.range L).flatMap fun r => [strListText ((List.range L).map (cellText L A.V fmt r)),
        strListText ((List.range L).map (cellVText L A.V fmt r)), (List.range L).flatMap fun _ => List.replicate 34 '-']) ++ q := by
    refine ⟨["format : ".toList, "{site}           {horizontal bond}".toList, "{vertical bond}  {               }".toList, "The lattice : ".toList,
      "<--VIEW BEGIN-->".toList, (List.range L).flatMap fun _ => List.replicate 34 '-'], ["<--VIEW END-->".toList, []], rfl, rfl, ?_⟩
    have h1 := lines_flatMap3 (fun r => strListText ((List.range L).map (cellText L A.V fmt r)))
      (fun r => strListText ((List.range L).map (cellVText L A.V fmt r))) (fun _ => (List.range L).flatMap fun _ => List.replicate 34 '-') (List.range L)
      (println "<--VIEW END-->".toList)
      (fun r _ => nl_strList _ fun t ht => by
        obtain ⟨c, _, rfl⟩ := List.mem_map.1 ht
        simp [cellText, nl_siteStr, nl_bondStr, nl_blanks])
      (fun r _ => nl_strList _ fun t ht => by
        obtain ⟨c, _, rfl⟩ := List.mem_map.1 ht
        simp [cellVText, nl_bondStr, nl_blanks])
      (fun r _ => nl_sep _ _)
    simp only [viewTextOf, List.append_assoc] at h1 ⊢
    rw [lines_println _ _ (by decide), lines_println _ _ (by decide), lines_println _ _ (by decide), lines_println _ _ (by decide),
      lines_println _ _ (by decide), Lattice.rowSeparator, lines_println _ _ (nl_sep _ _), ← List.flatMap_def]
    show _ :: _ :: _ :: _ :: _ :: _ :: lines _ = _
    rw [show (mkLat L A.V).length = L from rfl, h1, lines_last (by decide)]
    rfl
  obtain ⟨p, q, hp, hq, hl⟩ := hl
  refine ⟨_, by rw [e, M.lat]; exact ev, ?_, A.V.sg, A.V.bg, fun s hs => M.siteGid hs, fun b hb => M.bondGid hb, fun r hr => ?_⟩
  · rw [hl]
    have : ∀ (f g k : Nat → Text) n, ((List.range n).flatMap fun b => [f b, g b, k b]).length = 3 * n := by
      intro f g k n
      induction n with
      | zero => rfl
      | succ m ih => rw [List.range_succ, List.flatMap_append, List.length_append, ih]; simp; omega
    rw [List.length_append, List.length_append, this, hp, hq]; omega
  · rw [hl, List.append_assoc]
    have hh := getElem?_flatMap3 (fun r => strListText ((List.range L).map (cellText L A.V fmt r)))
      (fun r => strListText ((List.range L).map (cellVText L A.V fmt r))) (fun _ => (List.range L).flatMap fun _ => List.replicate 34 '-') L q hr
    refine ⟨_, _, ?_, ?_, (cellText_shows A.V fmt hr).numbers, (cellVText_shows A.V fmt hr).numbers⟩
    · rw [List.getElem?_append_right (by omega), hp, show 6 + 3 * r - 6 = 3 * r by omega]; exact hh.1
    · rw [List.getElem?_append_right (by omega), hp, show 7 + 3 * r - 6 = 3 * r + 1 by omega]; exact hh.2

/-! ### `viewCluster` -/

theorem Shows.intList (l : List Nat) : Shows (intListText l) (l.map fun n : Nat => (n : Int)) := by
  have key : Shows (commaSep (l.map fun n : Nat => intText n) ++ "]".toList) (l.map fun n : Nat => (n : Int)) := by
    induction l with
    | nil => exact Shows.skip (w := "]".toList) (by decide)
    | cons a l ih =>
      cases l with
      | nil => exact Shows.int a (c := ']') (by decide)
      | cons b l =>
        have h := ((Shows.int (a : Int) (c := ',') (by decide)).append (Shows.skip (w := [' ']) (by decide))).append ih
        have e : intText a ++ [','] ++ [' '] ++ (commaSep ((b :: l).map fun n : Nat => intText n) ++ "]".toList) =
            commaSep ((a :: b :: l).map fun n : Nat => intText n) ++ "]".toList := by
          simp [commaSep, List.append_assoc]
        rw [e] at h
        exact h
  have := (Shows.skip (w := "[".toList) (by decide)).append key
  rwa [List.nil_append, ← List.append_assoc] at this

/-- The numbers shown for a cluster: id, group id, number of sites, sites, number of bonds, bonds. -/
def clusterNums (id gid : Int) (sites bonds : List Nat) : List Int :=
  [id, gid, (sites.length : Int)] ++ sites.map (fun n : Nat => (n : Int)) ++ [(bonds.length : Int)] ++ bonds.map fun n : Nat => (n : Int)

theorem Shows.snoc {t : Text} {ns : List Int} (h : Shows t ns) {w : Text} (hw : ∀ c ∈ w, isNum c = false) : Shows (t ++ w) ns :=
  (h.append (Shows.skip hw)).congr (by simp)

theorem Shows.int_word (i : Int) {w : Text} {c : Char} {r : Text} (e : w = c :: r) (hc : isNum c = false) (hr : ∀ x ∈ r, isNum x = false) :
    Shows (intText i ++ w) [i] := by
  have := (Shows.int i hc).snoc hr
  rwa [List.append_assoc, List.singleton_append, ← e] at this

theorem OneCluster.viewText_shows (c : OneCluster) : Shows c.viewText (if c.isEmpty then [] else clusterNums c.id c.gid c.siteIds c.bondIds) := by
  unfold OneCluster.viewText
  split
  · exact fun r => rfl
  · have h1 : Shows (println ("cluster [ ".toList ++ intText c.id ++ " ] (gid  ".toList ++ intText c.gid ++ " ) :{".toList)) [c.id, c.gid] := by
      have := (((Shows.skip (w := "cluster [ ".toList) (by decide)).append
        (Shows.int_word c.id (w := " ] (gid  ".toList) rfl (by decide) (by decide))).append
        (Shows.int_word c.gid (w := " ) :{".toList) rfl (by decide) (by decide))).snoc (w := ['\n']) (by decide)
      simp only [List.append_assoc, List.nil_append, List.singleton_append] at this
      simpa only [println, List.append_assoc] using this
    have h2 : ∀ (w : Text) (l : List Nat), (∀ x ∈ w, isNum x = false) → Shows (println (w ++ intText l.length ++ ")  ".toList ++ intListText l))
        ((l.length : Int) :: l.map fun n : Nat => (n : Int)) := by
      intro w l hw
      have := (((Shows.skip hw).append (Shows.int_word (l.length : Int) (w := ")  ".toList) rfl (by decide) (by decide))).append
        (Shows.intList l)).snoc (w := ['\n']) (by decide)
      simp only [List.append_assoc, List.nil_append, List.singleton_append] at this
      simpa only [println, List.append_assoc] using this
    have := ((h1.append (h2 "  sites (".toList c.siteIds (by decide))).append (h2 "  bonds (".toList c.bondIds (by decide))).snoc
      (w := println "}".toList) (by decide)
    exact this.congr (by simp [clusterNums])

theorem ClusterPool.viewText_shows (p : ClusterPool) : Shows p.viewText
    ((p.clusters.flatMap fun c => if c.isEmpty then [] else clusterNums c.id c.gid c.siteIds c.bondIds) ++ [((p.clusters.map OneCluster.view).sum : Int)]) := by
  have h := (((Shows.skip (w := println "View cluster < BEGIN".toList) (by decide)).append
    (Shows.flatMap p.clusters fun c _ => OneCluster.viewText_shows c)).snoc (w := println "\n View cluster END >".toList) (by decide)).append
    ((Shows.skip (w := "Number of clusters  ".toList) (by decide)).append
      (Shows.int (((p.clusters.map OneCluster.view).sum : Nat) : Int) (c := '\n') (by decide)))
  simp only [List.append_assoc, List.nil_append] at h
  have e : p.viewText = println "View cluster < BEGIN".toList ++ (p.clusters.flatMap OneCluster.viewText ++ (println "\n View cluster END >".toList
      ++ ("Number of clusters  ".toList ++ (intText ((p.clusters.map OneCluster.view).sum : Nat) ++ ['\n'])))) := by
    simp only [ClusterPool.viewText, println, List.append_assoc]
  rw [e]
  exact h

theorem Core.sites_nil {V : LV} {P : PV} (C : Core L V P) {g : Int} (h0 : 0 ≤ g) (h1 : g < (2 * (L * L) : Nat)) (h : P.cb g = []) : P.cs g = [] := by
  refine List.eq_nil_iff_forall_not_mem.2 fun s hs => ?_
  obtain ⟨hs, e⟩ := (C.mems g h0 h1 s).1 hs
  have := C.inc s .right ⟨hs, by omega⟩
  have := (C.memb g h0 h1 (bondAt L s .right)).2 ⟨bondAt_lt hs _, this.trans e⟩
  rw [h] at this
  cases this

theorem flatMap_if_nil {β γ : Type} (l : List β) (p : β → Bool) (f : β → List γ) : (l.flatMap fun b => if p b then [] else f b) =
    (l.filter fun b => !p b).flatMap f := by
  induction l with
  | nil => rfl
  | cons b l ih =>
    rw [List.flatMap_cons, ih]
    cases hp : p b <;> simp [hp]

/-- C67: what `viewCluster()` prints.  In every reachable state the numbers in the text are, for every cluster `g` that has a bond, in increasing
order: `g` twice (id and group id), the number of its sites, its sites, the number of its bonds, its bonds; and at the end the number of clusters
shown. -/
theorem C67_view_cluster (h : Reach env v L S) : ∃ cs cb : Nat → List Nat,
    (∀ g < 2 * (L * L), S.pool.getSites g = .ok (cs g) ∧ S.pool.getBonds g = .ok (cb g)) ∧
    numbers S.viewCluster = (((List.range (2 * (L * L))).filter fun g => !(cb g).isEmpty).flatMap fun g : Nat => clusterNums g g (cs g) (cb g)) ++
      [(((List.range (2 * (L * L))).filter fun g => !(cb g).isEmpty).length : Int)] := by
  obtain ⟨hL, A, M, hA⟩ := h.sim
  have C := hA.inv.core
  refine ⟨fun g => A.P.cs g, fun g => A.P.cb g, fun g hg => ⟨M.getSites (natCast_mem_gids hg), M.getBonds (natCast_mem_gids hg)⟩, ?_⟩
  rw [Perc.viewCluster, (ClusterPool.viewText_shows S.pool).numbers, M.pool]
  have hr : ∀ g < 2 * (L * L), (0 : Int) ≤ g ∧ (g : Int) < (2 * (L * L) : Nat) := fun g hg => ⟨Int.natCast_nonneg _, by exact_mod_cast hg⟩
  have he : ∀ g < 2 * (L * L), (mkCluster A.P g).isEmpty = (A.P.cb g).isEmpty := by
    intro g hg
    show ((decide ((A.P.cs g).length = 0)) && (decide ((A.P.cb g).length = 0))) = _
    cases hb : A.P.cb g with
    | nil => rw [C.sites_nil (hr g hg).1 (hr g hg).2 hb]; rfl
    | cons a l => simp
  have e1 : ((mkPool (2 * (L * L)) A.P).clusters.flatMap fun c => if c.isEmpty then [] else clusterNums c.id c.gid c.siteIds c.bondIds) =
      (List.range (2 * (L * L))).flatMap fun g : Nat => if (A.P.cb g).isEmpty then [] else clusterNums g g (A.P.cs g) (A.P.cb g) := by
    show ((List.range _).map _).flatMap _ = _
    rw [List.flatMap_map, List.flatMap_def, List.flatMap_def]
    congr 1
    refine List.map_inj_left.2 fun g hg => ?_
    have hg := List.mem_range.1 hg
    show (if (mkCluster A.P g).isEmpty then [] else clusterNums (A.P.ci g) (A.P.cg g) (A.P.cs g) (A.P.cb g)) = _
    rw [he g hg]
    cases hb : (A.P.cb g).isEmpty with
    | true => rfl
    | false =>
      have hne : A.P.cb g ≠ [] := by rintro e; rw [e] at hb; cases hb
      rw [C.ciok g (hr g hg).1 (hr g hg).2 hne, C.cgok g (hr g hg).1 (hr g hg).2 hne]
  have e2 : ((mkPool (2 * (L * L)) A.P).clusters.map OneCluster.view).sum = ((List.range (2 * (L * L))).filter fun g : Nat => !(A.P.cb g).isEmpty).length := by
    show (((List.range _).map _).map OneCluster.view).sum = _
    rw [List.map_map]
    have : ∀ l : List Nat, (∀ g ∈ l, g < 2 * (L * L)) → (l.map (OneCluster.view ∘ fun g : Nat => mkCluster A.P g)).sum =
        (l.filter fun g : Nat => !(A.P.cb g).isEmpty).length := by
      intro l hl
      induction l with
      | nil => rfl
      | cons a l ih =>
        rw [List.map_cons, List.sum_cons, ih fun g hg => hl g (by simp [hg])]
        show (if (mkCluster A.P a).isEmpty then 0 else 1) + _ = _
        rw [he a (hl a (by simp))]
        cases hb : (A.P.cb a).isEmpty
        · simp [hb]; omega
        · simp [hb]
    exact this _ fun g hg => List.mem_range.1 hg
  rw [e1, e2, flatMap_if_nil]

theorem cast_inj_list {l l' : List Nat} (h : (l.map fun n : Nat => (n : Int)) = l'.map fun n : Nat => (n : Int)) : l = l' :=
  List.map_injective_iff.2 (fun _ _ e => Int.ofNat_inj.1 e) h

theorem clusterNums_append_inj {a b a' b' : Int} {s t s' t' : List Nat} {r r' : List Int}
    (h : clusterNums a b s t ++ r = clusterNums a' b' s' t' ++ r') : a = a' ∧ s = s' ∧ t = t' ∧ r = r' := by
  simp only [clusterNums, List.append_assoc, List.cons_append, List.nil_append, List.cons.injEq] at h
  obtain ⟨h1, _, h3, h⟩ := h
  have h3 : s.length = s'.length := by exact_mod_cast h3
  obtain ⟨h4, h⟩ := List.append_inj h (by simpa using h3)
  obtain ⟨h5, h⟩ := List.cons.inj h
  have h5 : t.length = t'.length := by exact_mod_cast h5
  obtain ⟨h6, h⟩ := List.append_inj h (by simpa using h5)
  exact ⟨h1, cast_inj_list h4, cast_inj_list h6, h⟩

theorem clusterNums_flatMap_inj {cs cb cs' cb' : Nat → List Nat} {n n' : Int} (l l' : List Nat)
    (h : (l.flatMap fun g : Nat => clusterNums g g (cs g) (cb g)) ++ [n] = (l'.flatMap fun g : Nat => clusterNums g g (cs' g) (cb' g)) ++ [n']) :
    l = l' ∧ ∀ g ∈ l, cs g = cs' g ∧ cb g = cb' g := by
  induction l generalizing l' with
  | nil =>
    cases l' with
    | nil => exact ⟨rfl, by simp⟩
    | cons b l' =>
      have := congrArg List.length h
      simp [clusterNums] at this
  | cons a l ih =>
    cases l' with
    | nil =>
      have := congrArg List.length h
      simp [clusterNums] at this
    | cons b l' =>
      rw [List.flatMap_cons, List.flatMap_cons, List.append_assoc, List.append_assoc] at h
      obtain ⟨h1, h2, h3, h4⟩ := clusterNums_append_inj h
      have h1 : a = b := by exact_mod_cast h1
      subst h1
      obtain ⟨h5, h6⟩ := ih _ h4
      exact ⟨by rw [h5], by simpa using ⟨⟨h2, h3⟩, fun g hg => h6 g hg⟩⟩

/-- C67: two objects (of any classes, lengths and histories) print the same clusters exactly if the lattices have the same length and every cluster
id has the same list of sites and the same list of bonds. -/
theorem C67_determined {β : Type} {env' : Env β} {v' : Variant} {L' : Nat} {S' : Perc β} (h : Reach env v L S) (h' : Reach env' v' L' S') :
    S.viewCluster = S'.viewCluster ↔ L = L' ∧ ∀ g < 2 * (L * L), S.pool.getSites g = S'.pool.getSites g ∧ S.pool.getBonds g = S'.pool.getBonds g := by
  obtain ⟨hL, A, M, hA⟩ := h.sim
  obtain ⟨hL', A', M', hA'⟩ := h'.sim
  have C := hA.inv.core
  have C' := hA'.inv.core
  constructor
  · intro e
    obtain ⟨cs, cb, hc, hn⟩ := C67_view_cluster h
    obtain ⟨cs', cb', hc', hn'⟩ := C67_view_cluster h'
    rw [e, hn'] at hn
    obtain ⟨hl, hg⟩ := clusterNums_flatMap_inj _ _ hn
    have hcs : ∀ g < 2 * (L * L), cs g = A.P.cs g ∧ cb g = A.P.cb g := fun g hg => by
      have := hc g hg
      rw [M.getSites (natCast_mem_gids hg), M.getBonds (natCast_mem_gids hg)] at this
      exact ⟨(Except.ok.inj this.1).symm, (Except.ok.inj this.2).symm⟩
    have hcs' : ∀ g < 2 * (L' * L'), cs' g = A'.P.cs g ∧ cb' g = A'.P.cb g := fun g hg => by
      have := hc' g hg
      rw [M'.getSites (natCast_mem_gids hg), M'.getBonds (natCast_mem_gids hg)] at this
      exact ⟨(Except.ok.inj this.1).symm, (Except.ok.inj this.2).symm⟩
    have hr : ∀ {N g : Nat}, g < N → (0 : Int) ≤ g ∧ (g : Int) < (N : Nat) := fun hg => ⟨Int.natCast_nonneg _, by exact_mod_cast hg⟩
    -- every bond of one lattice is a bond of the other
    have hle : 2 * (L * L) ≤ 2 * (L' * L') := by
      by_contra hlt
      have hb : 2 * (L' * L') < 2 * (L * L) := by omega
      have hbr := C.bgr _ hb
      obtain ⟨g, hgN, hgb⟩ : ∃ g : Nat, g < 2 * (L * L) ∧ (g : Int) = A.V.bg (2 * (L' * L')) :=
        ⟨(A.V.bg (2 * (L' * L'))).toNat, by omega, by omega⟩
      have hm := (C.memb g (hr hgN).1 (hr hgN).2 (2 * (L' * L'))).2 ⟨hb, hgb.symm⟩
      rw [← (hcs g hgN).2] at hm
      have hin : g ∈ (List.range (2 * (L * L))).filter fun g => !(cb g).isEmpty := by
        rw [List.mem_filter, List.mem_range]
        refine ⟨hgN, ?_⟩
        cases hcb : cb g with
        | nil => rw [hcb] at hm; cases hm
        | cons _ _ => rfl
      rw [← hl] at hin
      have h2 := hg g hin
      rw [← h2.2] at hm
      have hgN' := List.mem_range.1 (List.mem_filter.1 hin).1
      rw [(hcs' g hgN').2] at hm
      have := ((C'.memb g (hr hgN').1 (hr hgN').2 _).1 hm).1
      omega
    have hle' : 2 * (L' * L') ≤ 2 * (L * L) := by
      by_contra hlt
      have hb : 2 * (L * L) < 2 * (L' * L') := by omega
      have hbr := C'.bgr _ hb
      obtain ⟨g, hgN, hgb⟩ : ∃ g : Nat, g < 2 * (L' * L') ∧ (g : Int) = A'.V.bg (2 * (L * L)) :=
        ⟨(A'.V.bg (2 * (L * L))).toNat, by omega, by omega⟩
      have hm := (C'.memb g (hr hgN).1 (hr hgN).2 (2 * (L * L))).2 ⟨hb, hgb.symm⟩
      rw [← (hcs' g hgN).2] at hm
      have hin : g ∈ (List.range (2 * (L' * L'))).filter fun g => !(cb' g).isEmpty := by
        rw [List.mem_filter, List.mem_range]
        refine ⟨hgN, ?_⟩
        cases hcb : cb' g with
        | nil => rw [hcb] at hm; cases hm
        | cons _ _ => rfl
      have h2 := hg g hin
      rw [hl] at hin
      rw [h2.2] at hm
      have hgN' := List.mem_range.1 (List.mem_filter.1 hin).1
      rw [(hcs g hgN').2] at hm
      have := ((C.memb g (hr hgN').1 (hr hgN').2 _).1 hm).1
      omega
    obtain rfl : L = L' := by
      have : L * L = L' * L' := by omega
      exact Nat.mul_self_inj.1 this
    refine ⟨rfl, fun g hgN => ?_⟩
    rw [(hc g hgN).1, (hc g hgN).2, (hc' g hgN).1, (hc' g hgN).2]
    by_cases hin : g ∈ (List.range (2 * (L * L))).filter fun g => !(cb' g).isEmpty
    · rw [(hg g hin).1, (hg g hin).2]; exact ⟨rfl, rfl⟩
    · have h1 : cb' g = [] := by
        by_contra hne
        refine hin (List.mem_filter.2 ⟨List.mem_range.2 hgN, ?_⟩)
        cases hcb : cb' g with
        | nil => exact absurd hcb hne
        | cons _ _ => rfl
      rw [hl] at hin
      have h2 : cb g = [] := by
        by_contra hne
        refine hin (List.mem_filter.2 ⟨List.mem_range.2 hgN, ?_⟩)
        cases hcb : cb g with
        | nil => exact absurd hcb hne
        | cons _ _ => rfl
      have h3 : cs g = [] := by rw [(hcs g hgN).1]; exact C.sites_nil (hr hgN).1 (hr hgN).2 (by rw [← (hcs g hgN).2, h2])
      have h4 : cs' g = [] := by rw [(hcs' g hgN).1]; exact C'.sites_nil (hr hgN).1 (hr hgN).2 (by rw [← (hcs' g hgN).2, h1])
      rw [h1, h2, h3, h4]; exact ⟨rfl, rfl⟩
  · rintro ⟨rfl, hg⟩
    have hh : ∀ g < 2 * (L * L), A.P.cs g = A'.P.cs g ∧ A.P.cb g = A'.P.cb g := fun g hgN => by
      have := hg g hgN
      rw [M.getSites (natCast_mem_gids hgN), M.getBonds (natCast_mem_gids hgN), M'.getSites (natCast_mem_gids hgN),
        M'.getBonds (natCast_mem_gids hgN)] at this
      exact ⟨Except.ok.inj this.1, Except.ok.inj this.2⟩
    have key : ∀ g ∈ List.range (2 * (L * L)), (mkCluster A.P g).viewText = (mkCluster A'.P g).viewText ∧
        (mkCluster A.P g).view = (mkCluster A'.P g).view := by
      intro g hgN
      have hgN := List.mem_range.1 hgN
      obtain ⟨h1, h2⟩ := hh g hgN
      have hr : (0 : Int) ≤ g ∧ (g : Int) < (2 * (L * L) : Nat) := ⟨Int.natCast_nonneg _, by exact_mod_cast hgN⟩
      by_cases hne : A.P.cb g = []
      · have h3 := C.sites_nil hr.1 hr.2 hne
        have e1 : (mkCluster A.P g).isEmpty = true := by simp [mkCluster, OneCluster.isEmpty, hne, h3]
        have e2 : (mkCluster A'.P g).isEmpty = true := by simp [mkCluster, OneCluster.isEmpty, ← h1, ← h2, hne, h3]
        simp only [OneCluster.viewText, OneCluster.view, e1, e2, if_true]
        exact ⟨trivial, trivial⟩
      · have e : mkCluster A.P g = mkCluster A'.P g := by
          unfold mkCluster
          rw [h1, h2, C.cgok g hr.1 hr.2 hne, C.ciok g hr.1 hr.2 hne, C'.cgok g hr.1 hr.2 (h2 ▸ hne), C'.ciok g hr.1 hr.2 (h2 ▸ hne)]
        rw [e]; exact ⟨rfl, rfl⟩
    rw [Perc.viewCluster, Perc.viewCluster, M.pool, M'.pool, ClusterPool.viewText, ClusterPool.viewText]
    simp only [mkPool, List.flatMap_map, List.map_map]
    rw [List.flatMap_def, List.flatMap_def, List.map_inj_left.2 fun g hg => (key g hg).1]
    have : (List.map (OneCluster.view ∘ fun g : Nat => mkCluster A.P g) (List.range (2 * (L * L)))) =
        List.map (OneCluster.view ∘ fun g : Nat => mkCluster A'.P g) (List.range (2 * (L * L))) := List.map_inj_left.2 fun g hg => (key g hg).2
    rw [this]

/-! ### The listings -/

theorem nl_intList (l : List Nat) : '\n' ∉ intListText l := by
  have : '\n' ∉ commaSep (l.map fun n : Nat => intText n) := by
    induction l with
    | nil => simp [commaSep]
    | cons a l ih =>
      cases l with
      | nil => exact nl_intText a
      | cons b l =>
        show '\n' ∉ intText a ++ ", ".toList ++ commaSep _
        rw [List.mem_append, List.mem_append]
        rintro ((h1 | h1) | h1)
        · exact nl_intText a h1
        · revert h1; decide
        · exact ih h1
  rw [intListText, List.mem_append, List.mem_append]
  rintro ((h1 | h1) | h1)
  · revert h1; decide
  · exact this h1
  · revert h1; decide

/-- A text of one heading line and a line for every number below `n`. -/
theorem lines_listing {t : Text} (ht : '\n' ∉ t) (f : Nat → Text) (n : Nat) (hf : ∀ i, '\n' ∉ f i) {i : Nat} (hi : i < n) :
    (lines (println t ++ (List.range n).flatMap fun i => println (f i)))[1 + i]? = some (f i) := by
  have := lines_flatMap f (List.range n) [] fun i _ => hf i
  rw [List.append_nil] at this
  rw [lines_println _ _ ht, this, Nat.add_comm, List.getElem?_cons_succ, List.getElem?_append_left (by simpa using hi)]
  simp [hi]

/-- C66: `viewLattice` never raises in a reachable state, whatever format is asked for; a negative format prints one fixed line. -/
theorem C66_never_raises (h : Reach env v L S) (fmt : Int) : (∃ text, S.viewLattice fmt = .ok text) ∧
    (fmt < 0 → S.viewLattice fmt = .ok ("undefined format\n".toList)) := by
  have hneg : fmt < 0 → S.viewLattice fmt = .ok ("undefined format\n".toList) := by
    intro hf
    rw [Perc.viewLattice, if_pos hf]
    decide +kernel
  refine ⟨?_, hneg⟩
  by_cases h0 : fmt < 0
  · exact ⟨_, hneg h0⟩
  by_cases h3 : fmt = 3
  · subst h3
    obtain ⟨t, ht, _⟩ := C66_relative h
    exact ⟨t, ht⟩
  by_cases h4 : fmt = 4
  · subst h4
    obtain ⟨t, ht, _⟩ := C66_gids h
    exact ⟨t, ht⟩
  obtain ⟨t, ht, _⟩ := C66_view h fmt (by omega) h3 h4
  exact ⟨t, ht⟩

/-- C66: `list_all_sites()` shows on line `1 + s` the id, group id, row, column, relative index and the four bonds of site `s`. -/
theorem C66_list_sites (h : Reach env v L S) {s : Nat} (hs : s < L * L) : ∃ st line, S.lat.getSite s = .ok st ∧
    (lines S.lat.listAllSites)[1 + s]? = some line ∧
    numbers line = [(s : Int), st.gid, (s / L : Nat), (s % L : Nat), st.rel.c1, st.rel.c2, (bondAt L s .right : Nat), (bondAt L s .down : Nat),
      (bondAt L s .left : Nat), (bondAt L s .up : Nat)] := by
  obtain ⟨hL, A, M, hA⟩ := h.sim
  rw [M.lat]
  have e : (mkLat L A.V).listAllSites = println "id, gid, index, relative_index, connecting_bond_ids".toList ++
      (List.range (L * L)).flatMap fun i => println (intText (mkSite L A.V i).id ++ "   ".toList ++ intText (mkSite L A.V i).gid ++ "   ".toList ++
        (mkSite L A.V i).index.indexStr ++ "   ".toList ++ (mkSite L A.V i).rel.relStr ++ "   ".toList ++ intListText (mkSite L A.V i).bonds) := by
    show _ ++ ((List.range (L * L)).map (mkSite L A.V)).flatMap _ = _
    rw [List.flatMap_map]; rfl
  have hnl : ∀ i, '\n' ∉ intText (mkSite L A.V i).id ++ "   ".toList ++ intText (mkSite L A.V i).gid ++ "   ".toList ++
        (mkSite L A.V i).index.indexStr ++ "   ".toList ++ (mkSite L A.V i).rel.relStr ++ "   ".toList ++ intListText (mkSite L A.V i).bonds := by
    intro i
    simp [nl_intText, nl_rel, nl_intList, Idx.indexStr, nl_right]
  rw [e]
  refine ⟨_, _, getSite_mk hs, lines_listing (by decide +kernel) _ _ hnl hs, ?_⟩
  · have hi : ∀ i : Idx, Shows i.indexStr [i.c1, i.c2] := by
      intro i
      have h := (Shows.skip (w := "(".toList) (by decide)).append ((Shows.right 3 i.c1 (c := ',') (by decide)).append
        (Shows.right 3 i.c2 (c := ')') (by decide)))
      simp only [List.append_assoc, List.nil_append, List.singleton_append] at h
      simpa [Idx.indexStr] using h
    have := ((((Shows.int_word ((mkSite L A.V s).id : Int) (w := "   ".toList) rfl (by decide) (by decide)).append
      (Shows.int_word (mkSite L A.V s).gid (w := "   ".toList) rfl (by decide) (by decide))).append
      ((hi (mkSite L A.V s).index).snoc (w := "   ".toList) (by decide))).append
      ((Shows.rel (mkSite L A.V s).rel).snoc (w := "   ".toList) (by decide))).append (Shows.intList (mkSite L A.V s).bonds)
    simp only [List.append_assoc, List.singleton_append, List.cons_append, List.nil_append] at this
    have := this.numbers
    simp only [List.append_assoc]
    rw [this]; rfl

/-- C66: `list_all_bonds()` shows on line `1 + b` the id, group id, direction (0 horizontal, 1 vertical), row, column and the two sites of bond `b`. -/
theorem C66_list_bonds (h : Reach env v L S) {b : Nat} (hb : b < 2 * (L * L)) : ∃ bd line, S.lat.getBond b = .ok bd ∧
    (lines S.lat.listAllBonds)[1 + b]? = some line ∧
    numbers line = [(b : Int), bd.gid, (b / (L * L) : Nat), (b % (L * L) / L : Nat), (b % (L * L) % L : Nat),
      (min (bondEnds L b).1 (bondEnds L b).2 : Nat), (max (bondEnds L b).1 (bondEnds L b).2 : Nat)] := by
  obtain ⟨hL, A, M, hA⟩ := h.sim
  rw [M.lat]
  have e : (mkLat L A.V).listAllBonds = println "id, gid, index, connecting_site_ids".toList ++
      (List.range (2 * (L * L))).flatMap fun i => println (intText (mkBond L A.V i).id ++ "   ".toList ++ intText (mkBond L A.V i).gid ++ "   (".toList ++
        intText (mkBond L A.V i).type ++ ", ".toList ++ intText (mkBond L A.V i).row ++ ", ".toList ++ intText (mkBond L A.V i).col ++ ")   ".toList ++
        intListText (mkBond L A.V i).sites) := by
    show _ ++ ((List.range (2 * (L * L))).map (mkBond L A.V)).flatMap _ = _
    rw [List.flatMap_map]; rfl
  have hnl : ∀ i, '\n' ∉ intText (mkBond L A.V i).id ++ "   ".toList ++ intText (mkBond L A.V i).gid ++ "   (".toList ++
        intText (mkBond L A.V i).type ++ ", ".toList ++ intText (mkBond L A.V i).row ++ ", ".toList ++ intText (mkBond L A.V i).col ++ ")   ".toList ++
        intListText (mkBond L A.V i).sites := by
    intro i
    simp [nl_intText, nl_intList]
  rw [e]
  refine ⟨_, _, getBond_mk hb, lines_listing (by decide +kernel) _ _ hnl hb, ?_⟩
  · have := (((((Shows.int_word ((mkBond L A.V b).id : Int) (w := "   ".toList) rfl (by decide) (by decide)).append
      (Shows.int_word (mkBond L A.V b).gid (w := "   (".toList) rfl (by decide) (by decide))).append
      (Shows.int_word ((mkBond L A.V b).type : Int) (w := ", ".toList) rfl (by decide) (by decide))).append
      (Shows.int_word ((mkBond L A.V b).row : Int) (w := ", ".toList) rfl (by decide) (by decide))).append
      (Shows.int_word ((mkBond L A.V b).col : Int) (w := ")   ".toList) rfl (by decide) (by decide))).append (Shows.intList (mkBond L A.V b).sites)
    simp only [List.append_assoc, List.singleton_append, List.cons_append, List.nil_append] at this
    have := this.numbers
    simp only [List.append_assoc]
    rw [this]; rfl

theorem Shows.listing (i a b : Int) (l : List Nat) : Shows ("[ ".toList ++ intText i ++ " ] gid= ".toList ++ intText a ++ "  id= ".toList ++ intText b ++
    "  sites= ".toList ++ intListText l) (i :: a :: b :: l.map fun n : Nat => (n : Int)) := by
  have := ((((Shows.skip (w := "[ ".toList) (by decide)).append (Shows.int_word i (w := " ] gid= ".toList) rfl (by decide) (by decide))).append
    (Shows.int_word a (w := "  id= ".toList) rfl (by decide) (by decide))).append
    (Shows.int_word b (w := "  sites= ".toList) rfl (by decide) (by decide))).append (Shows.intList l)
  simp only [List.append_assoc, List.singleton_append, List.cons_append, List.nil_append] at this ⊢
  exact this

/-- C66: `print_sites()` never raises and never warns: line `1 + s` shows the id, group id, again the id and the four bonds of site `s`. -/
theorem C66_print_sites (h : Reach env v L S) : ∃ text, S.lat.printSites = .ok text ∧ (lines text).length = L * L + 2 ∧
    ∀ s < L * L, ∃ g line, S.lat.getSiteGid s = .ok g ∧ (lines text)[1 + s]? = some line ∧
      numbers line = [(s : Int), g, s, (bondAt L s .right : Nat), (bondAt L s .down : Nat), (bondAt L s .left : Nat), (bondAt L s .up : Nat)] := by
  obtain ⟨hL, A, M, hA⟩ := h.sim
  rw [M.lat]
  have e1 : ∀ i ∈ List.range (L * L), (mkLat L A.V).printSite i = .ok (println ("[ ".toList ++ intText i ++ " ] gid= ".toList ++ intText (A.V.sg i) ++
      "  id= ".toList ++ intText i ++ "  sites= ".toList ++ intListText (mkSite L A.V i).bonds)) := by
    intro i hi
    show ((mkLat L A.V).getSite i >>= _) = _
    rw [getSite_mk (List.mem_range.1 hi)]; rfl
  have e2 : (mkLat L A.V).printSites = .ok (println "print_sites".toList ++ (List.range (L * L)).flatMap fun i : Nat => println ("[ ".toList ++ intText i ++
      " ] gid= ".toList ++ intText (A.V.sg i) ++ "  id= ".toList ++ intText i ++ "  sites= ".toList ++ intListText (mkSite L A.V i).bonds)) := by
    show (do let ls ← (List.range (L ^ 2)).mapM _; return _) = _
    rw [Nat.pow_two, mapM_ok _ _ _ e1]; rfl
  have hnl : ∀ i : Nat, '\n' ∉ "[ ".toList ++ intText i ++ " ] gid= ".toList ++ intText (A.V.sg i) ++ "  id= ".toList ++ intText i ++
      "  sites= ".toList ++ intListText (mkSite L A.V i).bonds := by
    intro i
    simp [nl_intText, nl_intList]
  refine ⟨_, e2, ?_, fun s hs => ⟨A.V.sg s, _, getSiteGid_mk hs, lines_listing (by decide) _ _ hnl hs, ?_⟩⟩
  · have := lines_flatMap _ (List.range (L * L)) [] fun i _ => hnl i
    rw [List.append_nil] at this
    rw [lines_println _ _ (by decide), this]
    simp [lines, fields]
  · rw [(Shows.listing _ _ _ _).numbers]; rfl

/-- C66: `print_bonds()` never raises and never warns: line `1 + b` shows the id, group id, again the id and the two sites of bond `b`. -/
theorem C66_print_bonds (h : Reach env v L S) : ∃ text, S.lat.printBonds = .ok text ∧ (lines text).length = 2 * (L * L) + 2 ∧
    ∀ b < 2 * (L * L), ∃ g line, S.lat.getBondGid b = .ok g ∧ (lines text)[1 + b]? = some line ∧
      numbers line = [(b : Int), g, b, (min (bondEnds L b).1 (bondEnds L b).2 : Nat), (max (bondEnds L b).1 (bondEnds L b).2 : Nat)] := by
  obtain ⟨hL, A, M, hA⟩ := h.sim
  rw [M.lat]
  have e1 : ∀ i ∈ List.range (2 * (L * L)), (mkLat L A.V).printBond i = .ok (println ("[ ".toList ++ intText i ++ " ] gid= ".toList ++ intText (A.V.bg i) ++
      "  id= ".toList ++ intText i ++ "  sites= ".toList ++ intListText (mkBond L A.V i).sites)) := by
    intro i hi
    show ((mkLat L A.V).getBond i >>= _) = _
    rw [getBond_mk (List.mem_range.1 hi)]; rfl
  have e2 : (mkLat L A.V).printBonds = .ok (println "print_bonds".toList ++ (List.range (2 * (L * L))).flatMap fun i : Nat => println ("[ ".toList ++ intText i ++
      " ] gid= ".toList ++ intText (A.V.bg i) ++ "  id= ".toList ++ intText i ++ "  sites= ".toList ++ intListText (mkBond L A.V i).sites)) := by
    show (do let ls ← (List.range (2 * L ^ 2)).mapM _; return _) = _
    rw [Nat.pow_two, mapM_ok _ _ _ e1]; rfl
  have hnl : ∀ i : Nat, '\n' ∉ "[ ".toList ++ intText i ++ " ] gid= ".toList ++ intText (A.V.bg i) ++ "  id= ".toList ++ intText i ++
      "  sites= ".toList ++ intListText (mkBond L A.V i).sites := by
    intro i
    simp [nl_intText, nl_intList]
  refine ⟨_, e2, ?_, fun b hb => ⟨A.V.bg b, _, getBondGid_mk hb, lines_listing (by decide) _ _ hnl hb, ?_⟩⟩
  · have := lines_flatMap _ (List.range (2 * (L * L))) [] fun i _ => hnl i
    rw [List.append_nil] at this
    rw [lines_println _ _ (by decide), this]
    simp [lines, fields]
  · rw [(Shows.listing _ _ _ _).numbers]; rfl

/-! ### Concrete cases -/

/-- Sites 0, 1 and 2 of a lattice of length 3 are occupied: the table of group ids. -/
example : ∃ S, Reach demoEnv .l0 3 S ∧ (match S.viewLattice 4 with
    | .ok t => decide ((lines t).map String.ofList = ["Upper Left corner is <0,0>", "<x,y> means relative index",
        "90 degree Clockwise rotated Coordinate system", "y value increases as we go rightward. Like columns",
        "x value increases as we go downward . Like rows", "Format 'gid<x,y>'", "<--Relative index - VIEW BEGIN-->", "---------------",
        "    |0  |1  |2  |", "---------------", "  0 | 15| 15| 15|", "  1 | -1| -1| -1|", "  2 | -1| -1| -1|", "---------------",
        "<--Relative index - VIEW END-->", ""])
    | .error _ => false) = true :=
  checkOps_reach (ops := placeInOrder [0, 1, 2] 3) (by decide +kernel)

/-- The first row of the table of relative indices, and of `viewLattice(1)`. -/
example : ∃ S, Reach demoEnv .l0 3 S ∧ (match S.viewLattice 3, S.viewLattice 1 with
    | .ok t, .ok u => decide ((lines t)[10]?.map String.ofList = some "  0 |15 <  0,  0>|15 <  0,  1>|15 <  0, -1>|" ∧
        (lines u)[9]?.map String.ofList = some "['( -1  ,   3  )  (  3  ,   3  )', '( -1  ,   4  )  (  4  ,   4  )', '( -1  ,   5  )  (  5  ,   5  )']")
    | _, _ => false) = true :=
  checkOps_reach (ops := placeInOrder [0, 1, 2] 3) (by decide +kernel)

/-- The last lines of `viewCluster()`. -/
example : ∃ S, Reach demoEnv .l0 3 S ∧ decide (((lines S.viewCluster).map String.ofList).drop 37 = ["cluster [ 15 ] (gid  15 ) :{",
    "  sites (3)  [0, 1, 2]", "  bonds (9)  [15, 0, 9, 2, 1, 10, 16, 11, 17]", "}", "", " View cluster END >", "Number of clusters  10", ""]) = true :=
  checkOps_reach (ops := placeInOrder [0, 1, 2] 3) (by decide +kernel)

end SqPerc
