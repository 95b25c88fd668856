import Verif.Model.Json
import Verif.Spec.Json
import Verif.Proof.Decimal
/-
What `json.dumps` writes reads back.
-/
namespace SqPerc

section
variable {α : Type} {repr : α → Text}

/-- The text of a number. -/
def NumText (t : Text) : Prop := t ≠ [] ∧ ∀ c ∈ t, jsonNum c = true

mutual
/-- The value that is meant. -/
def Json.value (repr : α → Text) : Json α → JsonValue
  | .int n => .num (intText n)
  | .real x => .num (repr x)
  | .str t => .str t
  | .arr l => .arr (valueAll repr l)
  | .obj l => .obj (valueMembers repr l)
def valueAll (repr : α → Text) : List (Json α) → List JsonValue
  | [] => []
  | j :: l => j.value repr :: valueAll repr l
def valueMembers (repr : α → Text) : List (Text × Json α) → List (List Char × JsonValue)
  | [] => []
  | (k, j) :: l => (k, j.value repr) :: valueMembers repr l
end

theorem jsonNum_digit {c : Char} (h : c.isDigit = true) : jsonNum c = true := by simp [jsonNum, h]

theorem intText_numText (n : Int) : NumText (intText n) := by
  refine ⟨intText_ne_nil n, ?_⟩
  cases n with
  | ofNat n => exact fun c h => jsonNum_digit (Nat.isDigit_of_mem_toDigits (by norm_num) (by norm_num) h)
  | negSucc n =>
    intro c h
    rcases List.mem_cons.1 h with rfl | h
    · decide
    · exact jsonNum_digit (Nat.isDigit_of_mem_toDigits (by norm_num) (by norm_num) h)

theorem num_not_space {c : Char} (h : jsonNum c = true) : jsonSpace c = false ∧ c ≠ '"' ∧ c ≠ '[' ∧ c ≠ '{' := by
  refine ⟨?_, ?_, ?_, ?_⟩
  · cases hs : jsonSpace c
    · rfl
    · simp only [jsonSpace, Bool.or_eq_true, beq_iff_eq] at hs
      rcases hs with ((rfl | rfl) | rfl) | rfl <;> revert h <;> decide
  all_goals rintro rfl; revert h; decide

theorem parseString_string (t r : Text) : parseString (t.flatMap escapeChar ++ '"' :: r) = some (t, r) := by
  have step : ∀ (c : Char) (u : Text), u ≠ [] → c ≠ '"' → c ≠ '\\' → parseString (c :: u) = (parseString u).map fun p => (c :: p.1, p.2) := by
    intro c u hu h1 h2
    rcases u with _ | ⟨d, u⟩
    · exact absurd rfl hu
    · rw [parseString, if_neg h1, if_neg h2]
  have esc : ∀ (d d' : Char) (u : Text), unescape d = some d' → parseString ('\\' :: d :: u) = (parseString u).map fun p => (d' :: p.1, p.2) := by
    intro d d' u h
    rw [parseString, if_neg (by decide), if_pos rfl, h]
    cases parseString u <;> rfl
  induction t with
  | nil =>
    cases r with
    | nil => rw [List.flatMap_nil, List.nil_append, parseString, if_pos rfl]
    | cons d r => rw [List.flatMap_nil, List.nil_append, parseString, if_pos rfl]
  | cons c t ih =>
    rw [List.flatMap_cons, List.append_assoc]
    unfold escapeChar
    split
    · next h =>
      rw [List.cons_append, List.cons_append, List.nil_append, esc '"' '"' _ (by decide)]
      change Option.map _ (parseString (t.flatMap escapeChar ++ '"' :: r)) = _
      rw [ih, h]; rfl
    · split
      · next h =>
        rw [List.cons_append, List.cons_append, List.nil_append, esc '\\' '\\' _ (by decide)]
        change Option.map _ (parseString (t.flatMap escapeChar ++ '"' :: r)) = _
        rw [ih, h]; rfl
      · split
        · next h =>
          rw [List.cons_append, List.cons_append, List.nil_append, esc 'n' '\n' _ (by decide)]
          change Option.map _ (parseString (t.flatMap escapeChar ++ '"' :: r)) = _
          rw [ih, h]; rfl
        · split
          · next h =>
            rw [List.cons_append, List.cons_append, List.nil_append, esc 'r' '\r' _ (by decide)]
            change Option.map _ (parseString (t.flatMap escapeChar ++ '"' :: r)) = _
            rw [ih, h]; rfl
          · split
            · next h =>
              rw [List.cons_append, List.cons_append, List.nil_append, esc 't' '\t' _ (by decide)]
              change Option.map _ (parseString (t.flatMap escapeChar ++ '"' :: r)) = _
              rw [ih, h]; rfl
            · next h1 h2 _ _ _ =>
              rw [List.cons_append, List.nil_append, step c _ (by simp) h1 h2]
              change Option.map _ (parseString (t.flatMap escapeChar ++ '"' :: r)) = _
              rw [ih]; rfl

/-- A text that does not go on with a number. -/
def Ends (r : Text) : Prop := ∀ c u, r = c :: u → jsonNum c = false

theorem Ends.cons {c : Char} {u : Text} (h : jsonNum c = false) : Ends (c :: u) := by
  intro d v e
  rw [List.cons.injEq] at e
  rwa [← e.1]

theorem Ends.nil : Ends [] := fun _ _ h => by cases h

theorem parse_num {t : Text} (ht : NumText t) {r : Text} (hr : Ends r) (f : Nat) : parseValue (f + 1) (t ++ r) = some (.num t, r) := by
  have h1 : (t ++ r).takeWhile jsonNum = t ∧ (t ++ r).dropWhile jsonNum = r := by
    have hr' : r.takeWhile jsonNum = [] ∧ r.dropWhile jsonNum = r := by
      rcases r with _ | ⟨c, u⟩
      · exact ⟨rfl, rfl⟩
      · have := hr c u rfl
        exact ⟨by rw [List.takeWhile_cons_of_neg (by simp [this])], by rw [List.dropWhile_cons_of_neg (by simp [this])]⟩
    constructor
    · rw [List.takeWhile_append_of_pos ht.2, hr'.1, List.append_nil]
    · rw [List.dropWhile_append_of_pos ht.2, hr'.2]
  rcases t with _ | ⟨c, u⟩
  · exact absurd rfl ht.1
  · have hc := ht.2 c (by simp)
    obtain ⟨k1, k2, k3, k4⟩ := num_not_space hc
    have hs : skipSpace (c :: u ++ r) = c :: (u ++ r) := by
      rw [skipSpace, List.cons_append, List.dropWhile_cons_of_neg (by simp [k1])]
    rw [parseValue, hs]
    simp only [if_neg k2, if_neg k3, if_neg k4, if_pos hc]
    rw [List.cons_append] at h1
    rw [h1.1, h1.2]

theorem skip_cons {c : Char} (h : jsonSpace c = false) (t : Text) : skipSpace (c :: t) = c :: t := by
  rw [skipSpace, List.dropWhile_cons_of_neg (by simp [h])]

theorem skip_blank (t : Text) : skipSpace (' ' :: t) = skipSpace t := by
  rw [skipSpace, List.dropWhile_cons_of_pos (by decide), skipSpace]

theorem parseValue_blank (f : Nat) (t : Text) : parseValue f (' ' :: t) = parseValue f t := by
  cases f with
  | zero => rfl
  | succ f => rw [parseValue, parseValue, skip_blank]

theorem parseItems_blank (f : Nat) (t : Text) : parseItems f (' ' :: t) = parseItems f t := by
  cases f with
  | zero => rfl
  | succ f => rw [parseItems, parseItems, parseValue_blank]

theorem parseMembers_blank (f : Nat) (t : Text) : parseMembers f (' ' :: t) = parseMembers f t := by
  cases f with
  | zero => rfl
  | succ f => rw [parseMembers, parseMembers, skip_blank]

/-- The first character of a written value. -/
theorem dumps_head (hr : ∀ x, NumText (repr x)) (j : Json α) : ∃ c u, j.dumps repr = c :: u ∧ jsonSpace c = false ∧ c ≠ ']' ∧ c ≠ '}' := by
  have num : ∀ {t : Text}, NumText t → ∃ c u, t = c :: u ∧ jsonSpace c = false ∧ c ≠ ']' ∧ c ≠ '}' := by
    intro t ht
    rcases t with _ | ⟨c, u⟩
    · exact absurd rfl ht.1
    · refine ⟨c, u, rfl, (num_not_space (ht.2 c (by simp))).1, ?_, ?_⟩ <;>
      · have := ht.2 c (by simp)
        rintro rfl
        revert this; decide
  cases j with
  | int n => rw [Json.dumps]; exact num (intText_numText n)
  | real x => rw [Json.dumps]; exact num (hr x)
  | str t => rw [Json.dumps]; exact ⟨'"', _, rfl, by decide, by decide, by decide⟩
  | arr l => rw [Json.dumps]; exact ⟨'[', _, rfl, by decide, by decide, by decide⟩
  | obj l => rw [Json.dumps]; exact ⟨'{', _, rfl, by decide, by decide, by decide⟩

theorem commaSep_cons (t : Text) {ts : List Text} (h : ts ≠ []) : commaSep (t :: ts) = t ++ ',' :: ' ' :: commaSep ts := by
  rcases ts with _ | ⟨t', ts⟩
  · exact absurd rfl h
  · rw [commaSep, List.append_assoc, show ", ".toList = [',', ' '] by decide +kernel]
    · rfl
    · exact List.cons_ne_nil _ _

theorem dumpsAll_ne {l : List (Json α)} (h : l ≠ []) : dumpsAll repr l ≠ [] := by
  cases l with
  | nil => exact absurd rfl h
  | cons j l => rw [dumpsAll]; exact List.cons_ne_nil _ _

theorem dumpsMembers_ne {l : List (Text × Json α)} (h : l ≠ []) : dumpsMembers repr l ≠ [] := by
  cases l with
  | nil => exact absurd rfl h
  | cons j l => obtain ⟨k, j⟩ := j; rw [dumpsMembers]; exact List.cons_ne_nil _ _

mutual
theorem parse_dumps (hr : ∀ x, NumText (repr x)) : ∀ (j : Json α) {f : Nat} {r : Text}, (j.dumps repr).length ≤ f → Ends r →
    parseValue f (j.dumps repr ++ r) = some (j.value repr, r)
  | .int n, f, r, hf, he => by
    rw [Json.dumps] at *
    obtain ⟨g, rfl⟩ : ∃ g, f = g + 1 := ⟨f - 1, by
      have := List.length_pos_iff.2 (intText_numText n).1; omega⟩
    rw [Json.value]
    exact parse_num (intText_numText n) he g
  | .real x, f, r, hf, he => by
    rw [Json.dumps] at *
    obtain ⟨g, rfl⟩ : ∃ g, f = g + 1 := ⟨f - 1, by
      have := List.length_pos_iff.2 (hr x).1; omega⟩
    rw [Json.value]
    exact parse_num (hr x) he g
  | .str t, f, r, hf, he => by
    rw [Json.dumps] at *
    obtain ⟨g, rfl⟩ : ∃ g, f = g + 1 := ⟨f - 1, by
      have : 0 < (jsonString t).length := by simp [jsonString]
      omega⟩
    rw [Json.value, jsonString, List.cons_append, List.cons_append, parseValue, skip_cons (by decide), List.append_assoc]
    simp only [if_true, List.singleton_append]
    rw [parseString_string]
    rfl
  | .arr l, f, r, hf, he => by
    rw [Json.dumps] at *
    obtain ⟨g, rfl⟩ : ∃ g, f = g + 1 := ⟨f - 1, by
      simp only [List.cons_append, List.length_cons] at hf; omega⟩
    rw [Json.value, List.cons_append, List.cons_append, parseValue, skip_cons (by decide), List.append_assoc, List.singleton_append]
    simp only [if_neg (by decide : ¬ '[' = '"'), if_true]
    rcases l with _ | ⟨j, l⟩
    · rw [dumpsAll, commaSep, List.nil_append, skip_cons (by decide), List.head?_cons, if_pos rfl, valueAll]
      rfl
    · have hh : (skipSpace (commaSep (dumpsAll repr (j :: l)) ++ ']' :: r)).head? ≠ some ']' := by
        obtain ⟨c, u, e, h1, h2, _⟩ := dumps_head hr j
        have : ∃ w, commaSep (dumpsAll repr (j :: l)) = c :: w := by
          rw [dumpsAll]
          rcases l with _ | ⟨j', l⟩
          · rw [dumpsAll, commaSep, e]; exact ⟨_, rfl⟩
          · rw [commaSep_cons _ (dumpsAll_ne (List.cons_ne_nil _ _)), e]; exact ⟨_, rfl⟩
        obtain ⟨w, hw⟩ := this
        rw [hw, List.cons_append, skip_cons h1, List.head?_cons]
        simpa using h2
      rw [if_neg hh, parse_items hr (j :: l) (List.cons_ne_nil _ _) (by
        simp only [List.cons_append, List.length_cons, List.length_append, List.length_nil] at hf; omega)]
      rfl
  | .obj l, f, r, hf, he => by
    rw [Json.dumps] at *
    obtain ⟨g, rfl⟩ : ∃ g, f = g + 1 := ⟨f - 1, by
      simp only [List.cons_append, List.length_cons] at hf; omega⟩
    rw [Json.value, List.cons_append, List.cons_append, parseValue, skip_cons (by decide), List.append_assoc, List.singleton_append]
    simp only [if_neg (by decide : ¬ '{' = '"'), if_neg (by decide : ¬ '{' = '['), if_true]
    rcases l with _ | ⟨⟨k, j⟩, l⟩
    · rw [dumpsMembers, commaSep, List.nil_append, skip_cons (by decide), List.head?_cons, if_pos rfl, valueMembers]
      rfl
    · have hh : (skipSpace (commaSep (dumpsMembers repr ((k, j) :: l)) ++ '}' :: r)).head? ≠ some '}' := by
        have : ∃ w, commaSep (dumpsMembers repr ((k, j) :: l)) = '"' :: w := by
          rw [dumpsMembers]
          rcases l with _ | ⟨⟨k', j'⟩, l⟩
          · rw [dumpsMembers, commaSep, jsonString]; exact ⟨_, rfl⟩
          · rw [commaSep_cons _ (dumpsMembers_ne (List.cons_ne_nil _ _)), jsonString]; exact ⟨_, rfl⟩
        obtain ⟨w, hw⟩ := this
        rw [hw, List.cons_append, skip_cons (by decide), List.head?_cons]
        decide
      rw [if_neg hh, parse_members hr ((k, j) :: l) (List.cons_ne_nil _ _) (by
        simp only [List.cons_append, List.length_cons, List.length_append, List.length_nil] at hf; omega)]
      rfl
theorem parse_items (hr : ∀ x, NumText (repr x)) : ∀ (l : List (Json α)) {f : Nat} {r : Text}, l ≠ [] → (commaSep (dumpsAll repr l)).length + 1 ≤ f →
    parseItems f (commaSep (dumpsAll repr l) ++ ']' :: r) = some (valueAll repr l, r)
  | [], f, r, h, hf => absurd rfl h
  | [j], f, r, _, hf => by
    rw [dumpsAll, dumpsAll, commaSep] at *
    obtain ⟨g, rfl⟩ : ∃ g, f = g + 1 := ⟨f - 1, by omega⟩
    rw [parseItems, parse_dumps hr j (by omega) (Ends.cons (by decide)), valueAll, valueAll]
    simp only [skip_cons (by decide : jsonSpace ']' = false)]
  | j :: j' :: l, f, r, _, hf => by
    rw [dumpsAll, commaSep_cons _ (dumpsAll_ne (List.cons_ne_nil _ _))] at *
    obtain ⟨g, rfl⟩ : ∃ g, f = g + 1 := ⟨f - 1, by omega⟩
    simp only [List.length_append, List.length_cons] at hf
    rw [List.append_assoc, List.cons_append, parseItems, parse_dumps hr j (by omega) (Ends.cons (by decide))]
    simp only [skip_cons (by decide : jsonSpace ',' = false)]
    rw [List.cons_append, parseItems_blank, parse_items hr (j' :: l) (List.cons_ne_nil _ _) (by omega)]
    rw [valueAll]
    rfl
theorem parse_members (hr : ∀ x, NumText (repr x)) : ∀ (l : List (Text × Json α)) {f : Nat} {r : Text}, l ≠ [] →
    (commaSep (dumpsMembers repr l)).length + 1 ≤ f → parseMembers f (commaSep (dumpsMembers repr l) ++ '}' :: r) = some (valueMembers repr l, r)
  | [], f, r, h, hf => absurd rfl h
  | [(k, j)], f, r, _, hf => by
    rw [dumpsMembers, dumpsMembers, commaSep] at *
    obtain ⟨g, rfl⟩ : ∃ g, f = g + 1 := ⟨f - 1, by omega⟩
    simp only [List.length_append, List.length_cons, jsonString] at hf
    rw [jsonString, List.cons_append, List.cons_append, List.cons_append, parseMembers, skip_cons (by decide)]
    simp only [List.append_assoc, List.singleton_append, List.cons_append, List.nil_append]
    rw [parseString_string]
    simp only [skip_cons (by decide : jsonSpace ':' = false)]
    rw [parseValue_blank, parse_dumps hr j (by omega) (Ends.cons (by decide)), valueMembers, valueMembers]
    simp only [skip_cons (by decide : jsonSpace '}' = false)]
  | (k, j) :: (k', j') :: l, f, r, _, hf => by
    rw [dumpsMembers, commaSep_cons _ (dumpsMembers_ne (List.cons_ne_nil _ _))] at *
    obtain ⟨g, rfl⟩ : ∃ g, f = g + 1 := ⟨f - 1, by omega⟩
    simp only [List.length_append, List.length_cons, jsonString] at hf
    rw [jsonString, List.cons_append, List.cons_append, List.cons_append, List.cons_append, parseMembers, skip_cons (by decide)]
    simp only [List.append_assoc, List.singleton_append, List.cons_append, List.nil_append]
    rw [parseString_string]
    simp only [skip_cons (by decide : jsonSpace ':' = false)]
    rw [parseValue_blank, parse_dumps hr j (by omega) (Ends.cons (by decide))]
    simp only [skip_cons (by decide : jsonSpace ',' = false)]
    rw [parseMembers_blank, parse_members hr ((k', j') :: l) (List.cons_ne_nil _ _) (by omega), valueMembers]
    rfl
end

/-- What is written reads back. -/
theorem readJson_dumps (hr : ∀ x, NumText (repr x)) (j : Json α) : readJson (j.dumps repr) = some (j.value repr) := by
  have := parse_dumps hr j (f := (j.dumps repr).length) (r := []) le_rfl .nil
  rw [List.append_nil] at this
  rw [readJson, this]
  rfl

/-! ### No line breaks -/

theorem escape_nl (c : Char) : '\n' ∉ escapeChar c := by
  unfold escapeChar
  split
  · decide
  · split
    · decide
    · split
      · decide
      · split
        · decide
        · split
          · decide
          · next h _ _ => simpa using Ne.symm h

theorem jsonString_nl (t : Text) : '\n' ∉ jsonString t := by
  rw [jsonString, List.cons_append, List.mem_cons, List.mem_append, List.mem_flatMap]
  rintro (h | ⟨c, _, h⟩ | h)
  · revert h; decide
  · exact escape_nl c h
  · revert h; decide

theorem commaSep_nl {ts : List Text} (h : ∀ t ∈ ts, '\n' ∉ t) : '\n' ∉ commaSep ts := by
  induction ts with
  | nil => simp [commaSep]
  | cons t ts ih =>
    rcases ts with _ | ⟨t', ts⟩
    · rw [commaSep]; exact h t (by simp)
    · rw [commaSep_cons _ (List.cons_ne_nil _ _), List.mem_append, List.mem_cons, List.mem_cons]
      rintro (h' | h' | h' | h')
      · exact h t (by simp) h'
      · revert h'; decide
      · revert h'; decide
      · exact ih (fun x hx => h x (by simp [hx])) h'

theorem numText_nl {t : Text} (h : NumText t) : '\n' ∉ t := fun h' => by
  have := h.2 _ h'
  revert this; decide

mutual
theorem dumps_nl (hr : ∀ x, NumText (repr x)) : ∀ j : Json α, '\n' ∉ j.dumps repr
  | .int n => by rw [Json.dumps]; exact numText_nl (intText_numText n)
  | .real x => by rw [Json.dumps]; exact numText_nl (hr x)
  | .str t => by rw [Json.dumps]; exact jsonString_nl t
  | .arr l => by
    rw [Json.dumps, List.cons_append, List.mem_cons, List.mem_append]
    rintro (h | h | h)
    · revert h; decide
    · exact commaSep_nl (dumpsAll_nl hr l) h
    · revert h; decide
  | .obj l => by
    rw [Json.dumps, List.cons_append, List.mem_cons, List.mem_append]
    rintro (h | h | h)
    · revert h; decide
    · exact commaSep_nl (dumpsMembers_nl hr l) h
    · revert h; decide
theorem dumpsAll_nl (hr : ∀ x, NumText (repr x)) : ∀ l : List (Json α), ∀ t ∈ dumpsAll repr l, '\n' ∉ t
  | [] => by rw [dumpsAll]; simp
  | j :: l => by
    rw [dumpsAll]
    intro t ht
    rcases List.mem_cons.1 ht with rfl | ht
    · exact dumps_nl hr j
    · exact dumpsAll_nl hr l t ht
theorem dumpsMembers_nl (hr : ∀ x, NumText (repr x)) : ∀ l : List (Text × Json α), ∀ t ∈ dumpsMembers repr l, '\n' ∉ t
  | [] => by rw [dumpsMembers]; simp
  | (k, j) :: l => by
    rw [dumpsMembers]
    intro t ht
    rcases List.mem_cons.1 ht with rfl | ht
    · rw [List.mem_append, List.mem_cons, List.mem_cons]
      rintro (h | h | h | h)
      · exact jsonString_nl k h
      · revert h; decide
      · revert h; decide
      · exact dumps_nl hr j h
    · exact dumpsMembers_nl hr l t ht
end

/-! ### Values -/

theorem valueAll_eq (l : List (Json α)) : valueAll repr l = l.map (·.value repr) := by
  induction l with
  | nil => rw [valueAll]; rfl
  | cons j l ih => rw [valueAll, ih]; rfl

theorem valueMembers_eq (l : List (Text × Json α)) : valueMembers repr l = l.map fun p => (p.1, p.2.value repr) := by
  induction l with
  | nil => rw [valueMembers]; rfl
  | cons p l ih => obtain ⟨k, j⟩ := p; rw [valueMembers, ih]; rfl

/-- Access to a member, when the keys are distinct. -/
theorem get_member {l : List (Text × Json α)} {keys : List Text} (hk : l.map Prod.fst = keys) (hn : keys.Nodup) {i : Nat} {key : String} {j : Json α}
    (hi : l[i]? = some (key.toList, j)) : ((Json.obj l).value repr).get key = some (j.value repr) := by
  subst hk
  rw [Json.value, JsonValue.get, valueMembers_eq, ← List.map_reverse, List.find?_map, Option.map_map]
  have hm : (key.toList, j) ∈ l := List.mem_of_getElem? hi
  have huniq : ∀ p ∈ l, p.1 = key.toList → p = (key.toList, j) := by
    intro p hp e
    exact List.inj_on_of_nodup_map hn hp hm e
  cases hfnd : l.reverse.find? ((fun p : List Char × JsonValue => decide (p.1 = key.toList)) ∘ fun p : Text × Json α => (p.1, p.2.value repr)) with
  | none =>
    rw [List.find?_eq_none] at hfnd
    have := hfnd _ (List.mem_reverse.2 hm)
    simp at this
  | some p =>
    have h1 := List.find?_some hfnd
    have h2 := List.mem_reverse.1 (List.mem_of_find?_eq_some hfnd)
    simp only [Function.comp_apply, decide_eq_true_eq] at h1
    rw [huniq p h2 h1]
    rfl

/-- Access to an entry of a dictionary with distinct keys. -/
theorem get_dict {l : List (String × Json α)} {keys : List String} (hk : l.map Prod.fst = keys) (hn : keys.Nodup) {i : Nat} {key : String} {j : Json α}
    (hi : l[i]? = some (key, j)) : ((dict l).value repr).get key = some (j.value repr) := by
  refine get_member (keys := keys.map String.toList) ?_ (hn.map fun a b h => String.toList_inj.1 h) (i := i) ?_
  · rw [← hk, List.map_map, List.map_map]; rfl
  · rw [List.getElem?_map, hi]; rfl

theorem int_intText (n : Int) : (JsonValue.num (intText n)).int = some n := by
  cases n with
  | ofNat n =>
    have hd := digits_isDigit (n := n)
    have hne : Nat.toDigits 10 n ≠ [] := Nat.toDigits_ne_nil
    rw [intText, JsonValue.int]
    · rw [if_pos ⟨hne, hd⟩, Nat.ofDigitChars_ten_toDigits]
      rfl
    · intro t ht
      rw [ht, List.all_cons] at hd
      simp at hd
  | negSucc n =>
    rw [intText, JsonValue.int, if_pos ⟨Nat.toDigits_ne_nil, digits_isDigit⟩, Nat.ofDigitChars_ten_toDigits]
    rfl

end

end SqPerc
