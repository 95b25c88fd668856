import Verif.Model.Json
import Verif.Proof.Json
import Verif.Props.TableFiles
import Verif.Props.CrossCheck
/-
Property C90: the headers of the files, the cross-check file, and the test that reads it.
-/
namespace SqPerc

section text
variable {α : Type} {repr : α → Text} {L : Nat}

/-- What a header says, read with the JSON reader of Spec/Json. -/
structure HeadTells (v : JsonValue) (L : Nat) (n : Int) (t : Stamp) (columns desc : List String) : Prop where
  length : (v.get "length").bind JsonValue.int = some (L : Int)
  L : (v.get "L").bind JsonValue.int = some (L : Int)
  ensemble_size : (v.get "ensemble_size").bind JsonValue.int = some n
  En : (v.get "En").bind JsonValue.int = some n
  date : ((v.get "date").bind JsonValue.text).bind (fun s => (fields '.' s).mapM readNat) = some [t.year, t.month, t.day]
  time : ((v.get "time").bind JsonValue.text).bind (fun s => (fields ':' s).mapM readNat) = some [t.hour, t.minute, t.second]
  columns : ((v.get "columns").bind JsonValue.items).bind (List.mapM JsonValue.text) = some (columns.map String.toList)
  desc : ((v.get "desc").bind JsonValue.items).bind (List.mapM JsonValue.text) = some (desc.map String.toList)

theorem pad_avoids {c : Char} (hc : c.isDigit = false) (k n : Nat) : c ∉ (pad k n).toList := by
  refine not_mem_of_digits ?_ hc
  rw [pad_toList, List.all_append, digits_isDigit, Bool.and_true, List.all_eq_true]
  intro c hc
  rw [(List.mem_replicate.1 hc).2]
  decide

theorem mapM_some {β γ : Type} {f : β → Option γ} {g : β → γ} {l : List β} (h : ∀ x ∈ l, f x = some (g x)) : l.mapM f = some (l.map g) := by
  induction l with
  | nil => rfl
  | cons x l ih => rw [List.mapM_cons, h x (by simp), ih fun y hy => h y (by simp [hy])]; rfl

theorem dateText_fields (t : Stamp) : (fields '.' t.dateText).mapM readNat = some [t.year, t.month, t.day] := by
  have h : t.dateText = (pad 4 t.year).toList ++ '.' :: ((pad 2 t.month).toList ++ '.' :: (pad 2 t.day).toList) := by
    simp [Stamp.dateText, String.toList_append]
  rw [h, fields_append _ _ _ (pad_avoids (by decide) _ _), fields_append _ _ _ (pad_avoids (by decide) _ _),
    fields_single (pad_avoids (by decide) _ _)]
  simp [readNat_pad]

theorem timeText_fields (t : Stamp) : (fields ':' t.timeText).mapM readNat = some [t.hour, t.minute, t.second] := by
  have h : t.timeText = (pad 2 t.hour).toList ++ ':' :: ((pad 2 t.minute).toList ++ ':' :: (pad 2 t.second).toList) := by
    simp [Stamp.timeText, String.toList_append]
  rw [h, fields_append _ _ _ (pad_avoids (by decide) _ _), fields_append _ _ _ (pad_avoids (by decide) _ _),
    fields_single (pad_avoids (by decide) _ _)]
  simp [readNat_pad]

theorem strings_value (l : List String) : ((some ((strings l : Json α).value repr)).bind JsonValue.items).bind (List.mapM JsonValue.text) =
    some (l.map String.toList) := by
  rw [strings, Json.value, valueAll_eq, List.map_map]
  show List.mapM JsonValue.text _ = _
  rw [List.mapM_map]
  exact mapM_some fun s _ => by simp only [Function.comp_apply, Json.value, JsonValue.text]

theorem int_value (n : Int) : (some ((Json.int n : Json α).value repr)).bind JsonValue.int = some n := by
  rw [Json.value]; exact int_intText n

/-- The keys of the header of a table. -/
def headKeys : List String := ["length", "L", "ensemble_size", "En", "date", "time", "columns", "desc"]

theorem headKeys_nodup : headKeys.Nodup := by decide +kernel

/-- C90: the header of a table file: `json.dumps(head)` is one line, and it reads back as the lattice length, the ensemble size, the date and the
time, the names of the columns and the description. -/
theorem C90_header (hr : ∀ x, NumText (repr x)) (L : Nat) (n : Int) (t : Stamp) (columns desc : List String) :
    '\n' ∉ (tableHead L n t columns desc : Json α).dumps repr ∧
    ∃ v, readJson ((tableHead L n t columns desc : Json α).dumps repr) = some v ∧ HeadTells v L n t columns desc := by
  refine ⟨dumps_nl hr _, _, readJson_dumps hr _, ?_⟩
  have g : ∀ {i : Nat} {key : String} {j : Json α}, _ → _ := fun {i key j} =>
    get_dict (repr := repr) (l := [("length", Json.int (L : Int)), ("L", .int L), ("ensemble_size", .int n), ("En", .int n),
      ("date", .str t.dateText), ("time", .str t.timeText), ("columns", strings columns), ("desc", strings desc)])
      (keys := headKeys) rfl headKeys_nodup (i := i) (key := key) (j := j)
  unfold tableHead
  constructor
  · rw [g (i := 0) rfl]; exact int_value _
  · rw [g (i := 1) rfl]; exact int_value _
  · rw [g (i := 2) rfl]; exact int_value _
  · rw [g (i := 3) rfl]; exact int_value _
  · rw [g (i := 4) rfl, Json.value, Option.bind_some, JsonValue.text, Option.bind_some]; exact dateText_fields t
  · rw [g (i := 5) rfl, Json.value, Option.bind_some, JsonValue.text, Option.bind_some]; exact timeText_fields t
  · rw [g (i := 6) rfl]; exact strings_value _
  · rw [g (i := 7) rfl]; exact strings_value _

/-- The keys of the cross-check file. -/
def crossKeys : List String := ["length", "L", "site_id_sequence", "site_index_sequence", "pc",
  "site_count_wrapping_cluster_pc", "bond_count_wrapping_cluster_pc", "entropy_list", "order_largest_list",
  "order_wrapping_list", "date", "time", "columns", "desc"]

theorem crossKeys_nodup : crossKeys.Nodup := by decide +kernel

theorem number_value {rd : Text → Option α} {l : List α} (hrd : ∀ x ∈ l, rd (repr x) = some x) :
    ((Json.arr (l.map Json.real)).value repr).items.bind (List.mapM (JsonValue.number rd)) = some l := by
  rw [Json.value, valueAll_eq, List.map_map]
  show List.mapM _ _ = _
  rw [List.mapM_map]
  conv_rhs => rw [← List.map_id l]
  exact mapM_some fun x hx => by simp only [Function.comp_apply, Json.value, JsonValue.number, hrd x hx, id]

theorem ints_value (l : List Int) : ((Json.arr (l.map Json.int) : Json α).value repr).items.bind (List.mapM JsonValue.int) = some l := by
  rw [Json.value, valueAll_eq, List.map_map]
  show List.mapM _ _ = _
  rw [List.mapM_map]
  conv_rhs => rw [← List.map_id l]
  exact mapM_some fun x _ => by simp only [Function.comp_apply, Json.value, int_intText, id]

theorem lines_single {t : Text} (h : '\n' ∉ t) : lines t = [t] := fields_single h

theorem readParts {rd : Text → Option α} {v : JsonValue} {L sites bonds : Int} {ids : List Int} {idxs : List (List Int)} {pc : α} {es ls ws : List α}
    (h0 : (v.get "length").bind JsonValue.int = some L) (h2 : ((v.get "site_id_sequence").bind fun x => x.items.bind (List.mapM JsonValue.int)) = some ids)
    (h3 : ((v.get "site_index_sequence").bind fun x => x.items.bind (List.mapM fun x => x.items.bind fun l => l.mapM JsonValue.int)) = some idxs)
    (h4 : (v.get "pc").bind (JsonValue.number rd) = some pc) (h5 : (v.get "site_count_wrapping_cluster_pc").bind JsonValue.int = some sites)
    (h6 : (v.get "bond_count_wrapping_cluster_pc").bind JsonValue.int = some bonds)
    (h7 : ((v.get "entropy_list").bind fun x => x.items.bind (List.mapM (JsonValue.number rd))) = some es)
    (h8 : ((v.get "order_largest_list").bind fun x => x.items.bind (List.mapM (JsonValue.number rd))) = some ls)
    (h9 : ((v.get "order_wrapping_list").bind fun x => x.items.bind (List.mapM (JsonValue.number rd))) = some ws) :
    crossParts rd v = some (L.toNat, ⟨ids.map Int.toNat, idxs, pc, sites.toNat, bonds.toNat, es, ls, ws⟩) := by
  rw [crossParts, h0, h2, h3, h4, h5, h6, h7, h8, h9]
  rfl

theorem bd {β γ : Type} {o : Option β} {f : β → Option γ} {a : β} {b : γ} (h : o = some a) (h' : f a = some b) : o.bind f = some b := by
  rw [h]; exact h'

/-- The numbers in a cross-check file that are floats. -/
def CrossFile.reals (f : CrossFile α) : List α := f.pc :: (f.entropyList ++ f.orderLargestList ++ f.orderWrappingList)

theorem dumpsAll_reals (repr : α → Text) (l : List α) : dumpsAll repr (l.map Json.real) = l.map repr := by
  induction l with
  | nil => rfl
  | cons x l ih => rw [List.map_cons, List.map_cons, dumpsAll, Json.dumps, ih]

/-- The text depends only on how the numbers in the file are written. -/
theorem crossHead_congr {repr' : α → Text} (L : Nat) (t : Stamp) {f : CrossFile α} (h : ∀ x ∈ f.reals, repr x = repr' x) :
    (crossHead L t f).dumps repr = (crossHead L t f).dumps repr' := by
  have hm : ∀ l : List α, (∀ x ∈ l, x ∈ f.reals) → dumpsAll repr (l.map Json.real) = dumpsAll repr' (l.map Json.real) := fun l hl => by
    rw [dumpsAll_reals, dumpsAll_reals]
    exact List.map_congr_left fun x hx => h x (hl x hx)
  have h1 := hm f.entropyList fun x hx => by simp [CrossFile.reals, hx]
  have h2 := hm f.orderLargestList fun x hx => by simp [CrossFile.reals, hx]
  have h3 := hm f.orderWrappingList fun x hx => by simp [CrossFile.reals, hx]
  have h4 := h f.pc (by simp [CrossFile.reals])
  have hi : ∀ l : List Int, dumpsAll repr (l.map Json.int) = dumpsAll repr' (l.map Json.int) := fun l => by
    induction l with
    | nil => rfl
    | cons x l ih => rw [List.map_cons, dumpsAll, dumpsAll, ih, Json.dumps, Json.dumps]
  have hs : ∀ l : List String, dumpsAll repr (l.map fun s => (Json.str s.toList : Json α)) = dumpsAll repr' (l.map fun s => (Json.str s.toList : Json α)) := fun l => by
    induction l with
    | nil => rfl
    | cons x l ih => rw [List.map_cons, dumpsAll, dumpsAll, ih, Json.dumps, Json.dumps]
  have hii : ∀ l : List (List Int), dumpsAll repr (l.map fun p => Json.arr (p.map Json.int)) = dumpsAll repr' (l.map fun p => Json.arr (p.map Json.int)) := fun l => by
    induction l with
    | nil => rfl
    | cons x l ih => rw [List.map_cons, dumpsAll, dumpsAll, ih, Json.dumps, Json.dumps, hi]
  have hn : ∀ l : List Nat, dumpsAll repr (l.map fun s : Nat => Json.int s) = dumpsAll repr' (l.map fun s : Nat => Json.int s) := fun l => by
    induction l with
    | nil => rfl
    | cons x l ih => rw [List.map_cons, dumpsAll, dumpsAll, ih, Json.dumps, Json.dumps]
  simp only [crossHead, dict, strings, Json.dumps, dumpsMembers, List.map_cons, List.map_nil, h1, h2, h3, h4, hs, hii, hn]

/-- C90: what `test_data_json.py` reads from a cross-check file is what was written, if reading a number gives back what `repr` wrote (for the numbers
in the file). -/
theorem C90_cross {rd : Text → Option α} (L : Nat) (t : Stamp) {f : CrossFile α} (hr : ∀ x ∈ f.reals, NumText (repr x))
    (hrd : ∀ x ∈ f.reals, rd (repr x) = some x) : crossRead rd ((crossHead L t f).dumps repr) = some (L, f) := by
  classical
  obtain ⟨r, hrr⟩ : ∃ r : α → Text, r = fun x => if NumText (repr x) then repr x else ['0'] := ⟨_, rfl⟩
  have hsame : ∀ x ∈ f.reals, repr x = r x := fun x hx => by rw [hrr]; simp only; rw [if_pos (hr x hx)]
  have hall : ∀ x, NumText (r x) := fun x => by
    rw [hrr]
    simp only
    split
    · assumption
    · exact ⟨by simp, by decide⟩
  rw [crossHead_congr L t hsame]
  have hrd : ∀ x ∈ f.reals, rd (r x) = some x := fun x hx => by rw [← hsame x hx]; exact hrd x hx
  clear hr hsame hrr
  replace hr := hall
  clear hall
  revert hr hrd
  generalize r = repr
  intro hrd hr
  have g : ∀ {i : Nat} {key : String} {j : Json α}, _ → _ := fun {i key j} =>
    get_dict (repr := repr) (l := [("length", Json.int (L : Int)), ("L", .int L),
      ("site_id_sequence", .arr (f.siteIdSequence.map fun s : Nat => .int s)),
      ("site_index_sequence", .arr (f.siteIndexSequence.map fun p => .arr (p.map .int))),
      ("pc", .real f.pc), ("site_count_wrapping_cluster_pc", .int f.siteCount),
      ("bond_count_wrapping_cluster_pc", .int f.bondCount),
      ("entropy_list", .arr (f.entropyList.map .real)), ("order_largest_list", .arr (f.orderLargestList.map .real)),
      ("order_wrapping_list", .arr (f.orderWrappingList.map .real)),
      ("date", .str t.dateText), ("time", .str t.timeText), ("columns", strings headColumns), ("desc", strings headDesc)])
      (keys := crossKeys) rfl crossKeys_nodup (i := i) (key := key) (j := j)
  rw [crossRead, lines_single (dumps_nl hr _), List.headD_cons, readJson_dumps hr, Option.bind_some]
  unfold crossHead
  have iint : ∀ n : Int, ((Json.int n : Json α).value repr).int = some n := fun n => by rw [Json.value]; exact int_intText n
  have i2 : ((Json.arr (f.siteIdSequence.map fun s : Nat => .int s) : Json α).value repr).items.bind (List.mapM JsonValue.int) =
      some (f.siteIdSequence.map fun s : Nat => (s : Int)) := by
    have := ints_value (repr := repr) (f.siteIdSequence.map fun s : Nat => (s : Int))
    rwa [List.map_map] at this
  have i3 : ((Json.arr (f.siteIndexSequence.map fun p => .arr (p.map .int)) : Json α).value repr).items.bind
      (List.mapM fun x => x.items.bind fun l => l.mapM JsonValue.int) = some f.siteIndexSequence := by
    rw [Json.value, valueAll_eq, List.map_map]
    show List.mapM _ _ = _
    rw [List.mapM_map]
    conv_rhs => rw [← List.map_id f.siteIndexSequence]
    exact mapM_some fun p _ => ints_value p
  have i4 : ((Json.real f.pc).value repr).number rd = some f.pc := by rw [Json.value, JsonValue.number, hrd _ (by simp [CrossFile.reals])]
  rw [readParts (bd (g (i := 0) (key := "length") rfl) (iint _)) (bd (g (i := 2) (key := "site_id_sequence") rfl) i2)
    (bd (g (i := 3) (key := "site_index_sequence") rfl) i3) (bd (g (i := 4) (key := "pc") rfl) i4)
    (bd (g (i := 5) (key := "site_count_wrapping_cluster_pc") rfl) (iint _)) (bd (g (i := 6) (key := "bond_count_wrapping_cluster_pc") rfl) (iint _))
    (bd (g (i := 7) (key := "entropy_list") rfl) (number_value (l := f.entropyList) fun x hx => hrd x (by simp [CrossFile.reals, hx])))
    (bd (g (i := 8) (key := "order_largest_list") rfl) (number_value (l := f.orderLargestList) fun x hx => hrd x (by simp [CrossFile.reals, hx])))
    (bd (g (i := 9) (key := "order_wrapping_list") rfl) (number_value (l := f.orderWrappingList) fun x hx => hrd x (by simp [CrossFile.reals, hx])))]
  simp only [List.map_map, Int.toNat_natCast]
  rw [show (Int.toNat ∘ fun s : Nat => (s : Int)) = id from funext fun s => Int.toNat_natCast s, List.map_id]

end text

/-! ### Table files -/

section files
variable {K : Type} [Field K] [LinearOrder K] [IsStrictOrderedRing K] [FloorRing K] {env : Env K} {repr : K → Text} {L : Nat} {v : Variant}

/-- What a table file tells its reader: the first line is `# ` and a header that reads back; the other lines read as the array `rows`, with as many
numbers in each row as the header names columns. -/
def FileReads (text : Text) (L : Nat) (n : Int) (t : Stamp) (columns desc : List String) (rows : List (List K)) : Prop :=
  ∃ hd rest j T, lines text = ("# ".toList ++ hd) :: rest ∧ readJson hd = some j ∧ HeadTells j L n t columns desc ∧ readTable text = some T ∧
    List.Forall₂ (List.Forall₂ fun (q : ℚ) (x : K) => readDecimal (fmtE x) = some q) T rows ∧ ∀ row ∈ T, row.length = columns.length

theorem lines_saveText {header : Text} (hh : '\n' ∉ header) (rows : List (List K)) :
    ∃ rest, lines (saveText header rows) = ("# ".toList ++ header) :: rest := by
  rw [saveText, saveWith, lines_println _ _ (by
      rw [List.mem_append, not_or]; exact ⟨by decide +kernel, hh⟩)]
  exact ⟨_, rfl⟩

theorem saveText_reads (hr : ∀ x, NumText (repr x)) (L : Nat) (n : Int) (t : Stamp) (columns desc : List String) (hc : columns ≠ [])
    {rows : List (List K)} (hrow : ∀ row ∈ rows, row.length = columns.length) :
    FileReads (saveText ((tableHead L n t columns desc : Json K).dumps repr) rows) L n t columns desc rows := by
  obtain ⟨h1, j, h2, h3⟩ := C90_header hr L n t columns desc
  obtain ⟨rest, h4⟩ := lines_saveText h1 rows
  obtain ⟨T, h5, h6⟩ := C89_table h1 (rows := rows) (by
    rintro row hm rfl
    have := hrow _ hm
    exact hc (List.length_eq_zero_iff.1 this.symm))
  refine ⟨_, rest, j, T, h4, h2, h3, h5, h6, ?_⟩
  clear h5 h4
  induction h6 with
  | nil => simp
  | cons a _ ih =>
    intro row hm
    rcases List.mem_cons.1 hm with rfl | hm
    · rw [a.length_eq]; exact hrow _ (by simp)
    · exact ih (fun row hr => hrow row (by simp [hr])) row hm

/-- C90: the files of the ensemble drivers, in any arithmetic: header and table read back, the file of averages has the four columns named in its
header, the file of critical values the three named in its header. -/
theorem C90_files (hr : ∀ x, NumText (repr x)) (hv : v ≠ .sp) (hL : 0 < L) (pl : Bool) (ctor : Nat → Nat) {rs : List RunDraws} (hne : rs ≠ [])
    (hf : ∀ r ∈ rs, 5 * (L * L) < r.fuel) (n : Int) (t : Stamp) (desc : List String) :
    ∃ data crit, runEnsemble env v pl L ctor rs = .ok (data, crit) ∧ runEnsembleThreads env v L ctor rs = .ok data ∧
      data.length = L * L ∧ crit.length = rs.length ∧
      FileReads ((FileData.table n data).text repr env L t desc) L n t ["p", "H", "P1", "P2"] desc data ∧
      FileReads ((FileData.critical n crit).text repr env L t desc) L n t
        ["pc", "wrapping cluster site count at pc", "wrapping cluster bond count at pc"] desc
        (crit.map fun r => [r.pc, env.ar.ofNat r.sites, env.ar.ofNat r.bonds]) := by
  obtain ⟨S0, S1, Ss, F, data, _, _, h1, _, h2, h3, h4, h5⟩ := C42_entrywise_mean (env := env) hv hL pl ctor hne hf
  refine ⟨data, _, h2, h3, h4, by rw [List.length_map, h1], ?_, ?_⟩
  · refine saveText_reads hr L n t _ desc (List.cons_ne_nil _ _) fun row hm => ?_
    have hm : row ∈ data := hm
    obtain ⟨i, hi, e⟩ := List.mem_iff_getElem.1 hm
    obtain ⟨row', e', hl, _⟩ := h5 i (by rw [← h4]; exact hi)
    rw [List.getElem?_eq_getElem hi, e, Option.some.injEq] at e'
    rw [e', hl]
    rfl
  · refine saveText_reads hr L n t _ desc (List.cons_ne_nil _ _) fun row hm => ?_
    obtain ⟨r, _, rfl⟩ := List.mem_map.1 hm
    rfl

/-- C90: the file of the shortest path driver. -/
theorem C90_path_file (hr : ∀ x, NumText (repr x)) (L : Nat) (rows : List (K × K)) (n : Int) (t : Stamp) (desc : List String) :
    FileReads ((FileData.path n rows).text repr env L t desc) L n t ["pc", "p*"] desc (rows.map fun r => [r.1, r.2]) := by
  refine saveText_reads hr L n t _ desc (List.cons_ne_nil _ _) fun row hm => ?_
  obtain ⟨r, _, rfl⟩ := List.mem_map.1 hm
  rfl

/-- C90: the descriptions in the headers, as the drivers write them (`head['desc']`). -/
theorem C90_descriptions (hr : ∀ x, NumText (repr x)) (L : Nat) (n : Int) (t : Stamp) (crit : List (CritRow K)) (path : List (K × K)) (rows : List (List K)) :
    (∃ v, readJson (((FileData.critical n crit).head L t critDesc).dumps repr) = some v ∧
      HeadTells v L n t ["pc", "wrapping cluster site count at pc", "wrapping cluster bond count at pc"] ["pc=critical ocupation probability"]) ∧
    (∃ v, readJson (((FileData.path n path).head L t pathDesc).dumps repr) = some v ∧
      HeadTells v L n t ["pc", "p*"] ["pc=critical ocupation probability",
        "p*=occupation probability for which the wrapping cluster creates a shortest path for the first time"]) ∧
    (∃ v, readJson (((FileData.table n rows).head L t headDesc).dumps repr) = some v ∧
      HeadTells v L n t ["p", "H", "P1", "P2"] ["p=occupation probability", "H=entropy", "P1=order parameter by wrapping cluster",
        "P2=order parameter by largest cluster"]) ∧
    ∃ v, readJson (((FileData.table n rows).head L t headDescThreads).dumps repr) = some v ∧
      HeadTells v L n t ["p", "H", "P1", "P2"] ["p=occupation probability", "H=entropy", "P2=order parameter by wrapping cluster",
        "P1=order parameter by largest cluster"] :=
  ⟨(C90_header hr L n t critColumns critDesc).2, (C90_header hr L n t pathColumns pathDesc).2, (C90_header hr L n t headColumns headDesc).2,
    (C90_header hr L n t headColumns headDescThreads).2⟩

end files

/-! ### The test of the cross-check files -/

section test
variable {α : Type} [DecidableEq α] {env : Env α} {L : Nat} {rd : Text → Option α} {near : α → α → Bool}

/-- Equal entries at place `i`. -/
def SameAt {β : Type} (i : Nat) (l l' : List β) : Prop := ∃ x, l[i]? = some x ∧ l'[i]? = some x

theorem compare_step (l l' : List α) (i : Nat) (k : Py Unit) :
    (pyGet l i >>= fun a => pyGet l' i >>= fun b => if a ≠ b then .error .assertionError else k) = .ok () ↔ SameAt i l l' ∧ k = .ok () := by
  unfold pyGet SameAt
  cases h : l[i]? with
  | none => simp [bind, Except.bind]
  | some a =>
    cases h' : l'[i]? with
    | none => simp [bind, Except.bind]
    | some b =>
      by_cases e : a = b
      · simp [bind, Except.bind, e]
      · simp [bind, Except.bind, e, Ne.symm e]

theorem crossCompare_ok (f g : CrossFile α) (is : List Nat) : crossCompare f g is = .ok () ↔
    ∀ i ∈ is, SameAt i f.entropyList g.entropyList ∧ SameAt i f.orderLargestList g.orderLargestList ∧
      SameAt i f.orderWrappingList g.orderWrappingList := by
  induction is with
  | nil => simp [crossCompare]
  | cons i is ih =>
    rw [crossCompare, compare_step, compare_step, compare_step, ih]
    simp only [List.forall_mem_cons, and_assoc]

/-- C90: what the test checks, in any arithmetic.  It passes on a file that can be read exactly if the replay of the index sequence works, `pc` is
near, the two counts agree, and the three lists agree with the replay in the places of the recorded entropy list. -/
theorem C90_test {text : Text} {f : CrossFile α} (hread : crossRead rd text = some (L, f)) (ctor draws : Nat → Nat) (fuel : Nat) (ds : Nat → Draw) :
    crossTest env rd near ctor draws fuel ds text = .ok () ↔ ∃ g, crossReplay env L ctor draws f fuel ds = .ok g ∧ near f.pc g.pc = true ∧
      g.siteCount = f.siteCount ∧ g.bondCount = f.bondCount ∧ ∀ i < f.entropyList.length,
        SameAt i f.entropyList g.entropyList ∧ SameAt i f.orderLargestList g.orderLargestList ∧ SameAt i f.orderWrappingList g.orderWrappingList := by
  simp only [crossTest, hread]
  cases hg : crossReplay env L ctor draws f fuel ds with
  | error e => simp [bind, Except.bind, hg]
  | ok g =>
    simp only [bind, Except.bind, hg]
    by_cases h1 : near f.pc g.pc = true
    · rw [if_neg (by simp [h1])]
      by_cases h2 : g.siteCount = f.siteCount
      · rw [if_neg (by simp [h2])]
        by_cases h3 : g.bondCount = f.bondCount
        · rw [if_neg (by simp [h3]), crossCompare_ok]
          simp [h1, h2, h3]
        · rw [if_pos h3]
          simp [h3]
      · rw [if_pos h2]
        simp [h2]
    · rw [if_pos (by simpa using h1)]
      simp [h1]

omit [DecidableEq α] in
theorem numbers_of {l : List JsonValue} : ∀ {xs : List α}, l.mapM (JsonValue.number rd) = some xs → ∃ ts : List Text, l = ts.map .num ∧ ts.mapM rd = some xs := by
  induction l with
  | nil => intro xs h; exact ⟨[], rfl, h⟩
  | cons x l ih =>
    intro xs h
    rw [List.mapM_cons] at h
    simp only [bind, Option.bind_eq_some_iff, pure, Option.some.injEq] at h
    obtain ⟨y, h1, ys, h2, rfl⟩ := h
    obtain ⟨ts, rfl, h3⟩ := ih h2
    cases x with
    | num t =>
      refine ⟨t :: ts, rfl, ?_⟩
      rw [List.mapM_cons]
      simp only [bind, pure, Option.bind_eq_some_iff]
      exact ⟨y, h1, ys, h3, rfl⟩
    | _ => simp [JsonValue.number] at h1

omit [DecidableEq α] in
/-- C90: what is read is in the file under these names, as numbers and lists of numbers (not in quotes). -/
theorem C90_cross_values {text : Text} {f : CrossFile α} (h : crossRead rd text = some (L, f)) :
    ∃ v, readJson ((lines text).headD []) = some v ∧ (∃ i, (v.get "length").bind JsonValue.int = some i ∧ i.toNat = L) ∧
      (∃ t, v.get "pc" = some (.num t) ∧ rd t = some f.pc) ∧
      (∃ i, (v.get "site_count_wrapping_cluster_pc").bind JsonValue.int = some i ∧ i.toNat = f.siteCount) ∧
      (∃ i, (v.get "bond_count_wrapping_cluster_pc").bind JsonValue.int = some i ∧ i.toNat = f.bondCount) ∧
      (∃ ts : List Text, v.get "entropy_list" = some (.arr (ts.map .num)) ∧ ts.mapM rd = some f.entropyList) ∧
      (∃ ts : List Text, v.get "order_largest_list" = some (.arr (ts.map .num)) ∧ ts.mapM rd = some f.orderLargestList) ∧
      ∃ ts : List Text, v.get "order_wrapping_list" = some (.arr (ts.map .num)) ∧ ts.mapM rd = some f.orderWrappingList := by
  unfold crossRead at h
  obtain ⟨v, hv, h⟩ := Option.bind_eq_some_iff.1 h
  have hlist : ∀ {key : String} {xs : List α}, ((v.get key).bind fun x => x.items.bind (List.mapM (JsonValue.number rd))) = some xs →
      ∃ ts : List Text, v.get key = some (.arr (ts.map .num)) ∧ ts.mapM rd = some xs := by
    intro key xs hk
    obtain ⟨w, h1, h2⟩ := Option.bind_eq_some_iff.1 hk
    obtain ⟨l, h3, h4⟩ := Option.bind_eq_some_iff.1 h2
    obtain ⟨ts, rfl, h5⟩ := numbers_of h4
    cases w with
    | arr l' =>
      rw [JsonValue.items, Option.some.injEq] at h3
      exact ⟨ts, by rw [h1, h3], h5⟩
    | _ => simp [JsonValue.items] at h3
  unfold crossParts at h
  simp only [bind, pure] at h
  obtain ⟨i, h1, h⟩ := Option.bind_eq_some_iff.1 h
  obtain ⟨ids, h2, h⟩ := Option.bind_eq_some_iff.1 h
  obtain ⟨idxs, h3, h⟩ := Option.bind_eq_some_iff.1 h
  obtain ⟨pc, h4, h⟩ := Option.bind_eq_some_iff.1 h
  obtain ⟨sites, h5, h⟩ := Option.bind_eq_some_iff.1 h
  obtain ⟨bonds, h6, h⟩ := Option.bind_eq_some_iff.1 h
  obtain ⟨es, h7, h⟩ := Option.bind_eq_some_iff.1 h
  obtain ⟨ls, h8, h⟩ := Option.bind_eq_some_iff.1 h
  obtain ⟨ws, h9, h⟩ := Option.bind_eq_some_iff.1 h
  rw [Option.some.injEq, Prod.mk.injEq] at h
  obtain ⟨rfl, rfl⟩ := h
  refine ⟨v, hv, ⟨i, h1, rfl⟩, ?_, ⟨sites, h5, rfl⟩, ⟨bonds, h6, rfl⟩, hlist h7, hlist h8, hlist h9⟩
  obtain ⟨w, g1, g2⟩ := Option.bind_eq_some_iff.1 h4
  cases w with
  | num t => exact ⟨t, g1, g2⟩
  | _ => simp [JsonValue.number] at g2

/-- C90: a text that cannot be read fails the test. -/
theorem C90_unreadable {text : Text} (hread : crossRead rd text = none) (ctor draws : Nat → Nat) (fuel : Nat) (ds : Nat → Draw) :
    crossTest env rd near ctor draws fuel ds text = .error .valueError := by
  unfold crossTest
  rw [hread]

/-- C90: the file that `single_realization(SitePercolationL0, L)` writes passes the test with any other random numbers, in any arithmetic in which the
numbers in the file can be read back. -/
theorem C90_test_reals {repr : α → Text} (hL : 0 < L) (ctor : Nat → Nat) {r : RunDraws} (hf : L * L < r.fuel) (t : Stamp) :
    ∃ f, singleRealization env .l0 L ctor r = .ok f ∧ ((∀ x ∈ f.reals, NumText (repr x) ∧ rd (repr x) = some x) → near f.pc f.pc = true →
      ∀ (ctor' draws' : Nat → Nat) (fuel' : Nat) (ds' : Nat → Draw), L * L < fuel' →
        crossTest env rd near ctor' draws' fuel' ds' ((crossHead L t f).dumps repr) = .ok ()) := by
  obtain ⟨f, h1, h2, h3, h4, h5, h6, h7⟩ := C59_replay_exact env hL ctor hf
  refine ⟨f, h1, fun hr hnear ctor' draws' fuel' ds' hf' => ?_⟩
  rw [C90_test (C90_cross L t (fun x hx => (hr x hx).1) fun x hx => (hr x hx).2)]
  refine ⟨f, h7 ctor' draws' fuel' ds' hf', hnear, rfl, rfl, fun i hi => ?_⟩
  have hs : ∀ l : List α, l.length = L * L → SameAt i l l := fun l hl =>
    ⟨_, List.getElem?_eq_getElem (by rw [hl, ← h4]; exact hi), List.getElem?_eq_getElem (by rw [hl, ← h4]; exact hi)⟩
  exact ⟨hs _ h4, hs _ h5, hs _ h6⟩

/-- C90: the same if every number can be read back. -/
theorem C90_test_passes {repr : α → Text} (hr : ∀ x, NumText (repr x)) (hrd : ∀ x, rd (repr x) = some x) (hnear : ∀ x, near x x = true)
    (hL : 0 < L) (ctor : Nat → Nat) {r : RunDraws} (hf : L * L < r.fuel) (t : Stamp) :
    ∃ f, singleRealization env .l0 L ctor r = .ok f ∧ ∀ (ctor' draws' : Nat → Nat) (fuel' : Nat) (ds' : Nat → Draw), L * L < fuel' →
      crossTest env rd near ctor' draws' fuel' ds' ((crossHead L t f).dumps repr) = .ok () := by
  obtain ⟨f, h1, h2⟩ := C90_test_reals (env := env) (rd := rd) (near := near) (repr := repr) hL ctor hf t
  exact ⟨f, h1, h2 (fun x _ => ⟨hr x, hrd x⟩) (hnear _)⟩

/-- The name of a file without the directory. -/
def baseName (name : Text) : Text := name.drop "./data/".toList.length

/-- C90: of the files that the package writes, `get_file_list` finds exactly the cross-check files of SitePercolationL0. -/
theorem C90_listed (c : FileClass) (k : FileKind) (L : Nat) (t : Stamp) (w : Option Nat) :
    crossListed (baseName (fileName c k L t w).toList) = true ↔ c = .l0 ∧ k = .crossCheck := by
  have e1 : baseName (fileName c k L t w).toList =
      (c.signature ++ k.label).toList ++ (toString L ++ "_" ++ t.text ++ workerText w ++ ".txt").toList := by
    rw [baseName, fileName, String.toList_append, List.drop_left]
    simp only [String.toList_append, List.append_assoc]
  have e2 : "SitePercolationL0__percolation_cross_check_data_L".toList = (FileClass.l0.signature ++ FileKind.crossCheck.label).toList := by decide +kernel
  rw [e1, crossListed, e2, List.isPrefixOf_iff_prefix]
  constructor
  · rintro ⟨r, h⟩
    obtain ⟨h1, h2, _⟩ := prefix_inj h
    exact ⟨h1.symm, h2.symm⟩
  · rintro ⟨rfl, rfl⟩
    exact ⟨_, rfl⟩

/-- C90: the test passes for a directory exactly if it passes for every file that is found. -/
theorem C90_test_all (fuel : Nat) (files : List (Text × Text)) (o : Nat → CrossDraws) :
    crossTestAll env rd near fuel o files = .ok () ↔ ∀ i name text, (files.filter fun p => crossListed p.1)[i]? = some (name, text) →
      crossTest env rd near (o i).ctor (o i).draws fuel (o i).steps text = .ok () := by
  induction files generalizing o with
  | nil => simp [crossTestAll]
  | cons p files ih =>
    obtain ⟨name, text⟩ := p
    by_cases hl : crossListed name = true
    · rw [crossTestAll, if_pos hl, List.filter_cons_of_pos (by exact hl)]
      cases hc : crossTest env rd near (o 0).ctor (o 0).draws fuel (o 0).steps text with
      | error e =>
        constructor
        · intro h; cases h
        · intro h
          have := h 0 name text rfl
          rw [hc] at this; cases this
      | ok u =>
        show crossTestAll env rd near fuel (fun i => o (i + 1)) files = .ok () ↔ _
        rw [ih]
        constructor
        · intro h i name' text' hi
          cases i with
          | zero =>
            rw [List.getElem?_cons_zero, Option.some.injEq, Prod.mk.injEq] at hi
            rw [← hi.2]; exact hc
          | succ i => exact h i name' text' (by rwa [List.getElem?_cons_succ] at hi)
        · intro h i name' text' hi
          exact h (i + 1) name' text' (by rwa [List.getElem?_cons_succ])
    · rw [crossTestAll, if_neg hl, List.filter_cons_of_neg (by simpa using hl)]
      exact ih o

end test

/-! ### Exact arithmetic -/

section exact
variable {L : Nat} {so : SetOrder} {rd : Text → Option ℝ} {near : ℝ → ℝ → Bool}

theorem sameAt_map {f : List Nat → ℝ} {l : List ℝ} {q : List Nat} {i : Nat} (hi : i < q.length) :
    SameAt i l ((stages [] q).map f) ↔ l[i]? = some (f (q.take (i + 1))) := by
  unfold SameAt
  rw [List.getElem?_map, stages_getElem?, if_pos hi]
  simp

open Classical in
/-- C90: what the test accepts in exact arithmetic.  If the recorded index sequence is an order `q` of all sites, the file passes exactly if the
recorded threshold is near the true one, the recorded counts are those of the wrapping cluster at the threshold, and every recorded entropy, up to
the length of that list, and the entries of the other two lists in the same places, are the true ones.  Entries beyond the entropy list are not
looked at. -/
theorem C90_test_exact (hL : 0 < L) {text : Text} {f : CrossFile ℝ} (hread : crossRead rd text = some (L, f)) {q : List Nat}
    (hq : q.Perm (List.range (L * L))) (hf : f.siteIndexSequence = (q.map (rowCol L)).map (fun p => [p.1, p.2])) (ctor draws : Nat → Nat) {fuel : Nat}
    (hfuel : L * L < fuel) (ds : Nat → Draw) :
    crossTest (realEnv so) rd near ctor draws fuel ds text = .ok () ↔
      (∃ pc, CritOf L q ⟨pc, f.siteCount, f.bondCount⟩ ∧ near f.pc pc = true) ∧ f.entropyList.length ≤ L * L ∧
      ∀ i < f.entropyList.length, f.entropyList[i]? = some (shannon L (· ∈ q.take (i + 1))) ∧
        f.orderLargestList[i]? = some ((seqLargest L (q.take (i + 1)) : ℝ) / (2 * (L * L) : Nat)) ∧
        f.orderWrappingList[i]? = some ((seqWrapping L (q.take (i + 1)) : ℝ) / (2 * (L * L) : Nat)) := by
  obtain ⟨N, h1, h2, ⟨es, h3, h3', h3''⟩, h4, h5⟩ := replay_order (realEnv so) hL hq hf ctor draws hfuel ds
  have hlen : q.length = L * L := by rw [hq.length_eq, List.length_range]
  have hE : N.entropyList = (stages [] q).map fun q => shannon L (· ∈ q) := by
    rw [h3]; exact h3'' _ fun T q h => Trace.entropy (so := so) h
  have hC : CritOf L q (critRow (realEnv so) N) := by
    refine critOf_prefix (m := L * L) (by rw [List.take_of_length_le (by omega)]; exact h2) fun hL3 => ?_
    rw [List.take_of_length_le (by omega)]
    exact full_wraps hL fun s hs => hq.mem_iff.2 (List.mem_range.2 hs)
  rw [C90_test hread]
  have hent : ∀ i, i < q.length → ((SameAt i f.entropyList N.entropyList ∧ SameAt i f.orderLargestList N.orderLargestList ∧
      SameAt i f.orderWrappingList N.orderWrapList) ↔ (f.entropyList[i]? = some (shannon L (· ∈ q.take (i + 1))) ∧
        f.orderLargestList[i]? = some ((seqLargest L (q.take (i + 1)) : ℝ) / (2 * (L * L) : Nat)) ∧
        f.orderWrappingList[i]? = some ((seqWrapping L (q.take (i + 1)) : ℝ) / (2 * (L * L) : Nat)))) := by
    intro i hi
    rw [hE, h4, h5, sameAt_map hi, sameAt_map hi, sameAt_map hi, ordW_real]
    rfl
  constructor
  · rintro ⟨g, e, a1, a2, a3, a4⟩
    rw [h1] at e
    obtain rfl := Except.ok.inj e
    have hle : f.entropyList.length ≤ L * L := by
      by_contra hlt
      obtain ⟨x, _, hx⟩ := (a4 (L * L) (by omega)).1
      have := (List.getElem?_eq_some_iff.1 hx).1
      rw [show (crossFile (realEnv so) N f.siteIdSequence f.siteIndexSequence).entropyList = N.entropyList from rfl, h3, h3'] at this
      omega
    refine ⟨⟨_, ?_, a1⟩, hle, fun i hi => (hent i (by omega)).1 (a4 i hi)⟩
    rw [← a2, ← a3]
    exact hC
  · rintro ⟨⟨pc, c1, c2⟩, hle, c3⟩
    have e := hC.unique c1
    refine ⟨_, h1, ?_, ?_, ?_, fun i hi => (hent i (by omega)).2 (c3 i hi)⟩
    · show near f.pc (critRow (realEnv so) N).pc = true
      rw [e]; exact c2
    · show (critRow (realEnv so) N).sites = _
      rw [e]
    · show (critRow (realEnv so) N).bonds = _
      rw [e]

end exact

/-! ### Samples -/

-- the hypotheses on `repr` and `rd` can be met
example : (∀ x : Int, NumText (intText x)) ∧ ∀ x : Int, (JsonValue.num (intText x)).int = some x := ⟨intText_numText, int_intText⟩

/-- A cross-check file for the lattice of length 2, with an arithmetic in which nothing is computed. -/
def demoCross (sites : Nat) : Text :=
  (crossHead 2 ⟨2021, 3, 7, 9, 5, 0⟩ ⟨[2, 0, 3, 1], [[1, 0], [0, 0], [1, 1], [0, 1]], (), sites, 0, [(), (), (), ()], [(), (), (), ()],
    [(), (), (), ()]⟩).dumps fun _ => "0.5".toList

example : (demoCross 0).take 84 = "{\"length\": 2, \"L\": 2, \"site_id_sequence\": [2, 0, 3, 1], \"site_index_sequence\": [[1, ".toList := by decide +kernel

-- it passes; with another count it fails
example : crossTest demoEnv (fun _ => some ()) (fun _ _ => true) id id 10 (fun _ => ⟨0, 0⟩) (demoCross 0) = .ok () ∧
    crossTest demoEnv (fun _ => some ()) (fun _ _ => true) id id 10 (fun _ => ⟨0, 0⟩) (demoCross 1) = .error .assertionError ∧
    crossTest demoEnv (fun _ => some ()) (fun _ _ => true) id id 10 (fun _ => ⟨0, 0⟩) ((demoCross 0).dropLast) = .error .valueError := by decide +kernel

example : crossListed "SitePercolationL0__percolation_cross_check_data_L100_20210329_192325.txt".toList = true ∧
    crossListed "SitePercolationL1__percolation_cross_check_data_L100_20210329_192325.txt".toList = false := by decide +kernel

/-- The text of a header. -/
example : (tableHead 6 100 ⟨2021, 3, 7, 9, 5, 0⟩ ["pc", "p*"] [] : Json Unit).dumps (fun _ => []) =
    ("{\"length\": 6, \"L\": 6, \"ensemble_size\": 100, \"En\": 100, \"date\": \"2021.03.07\", \"time\": \"09:05:00\", " ++
      "\"columns\": [\"pc\", \"p*\"], \"desc\": []}").toList := by decide +kernel

end SqPerc
