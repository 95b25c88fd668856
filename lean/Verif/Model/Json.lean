import Verif.Model.Table
import Verif.Spec.Json
import Verif.Spec.Text
/-
`json.dumps(head)` (run_py/ensemble.py:70, 91, 151; run_py/shortest_path_run.py:44; run_py/rsbd_percolatioin_run.py:53) and the dictionaries that are
written with it.
-/
namespace SqPerc

/-- The Python values that are written: ints, floats, strings, lists (and tuples), dictionaries with string keys in insertion order. -/
inductive Json (α : Type)
  | int (n : Int)
  | real (x : α)
  | str (t : Text)
  | arr (l : List (Json α))
  | obj (l : List (Text × Json α))

/-- The characters of a JSON string.  (Control characters other than those below, and characters outside ASCII, are written as `\uXXXX`; there are none
in the texts that are written, and this is not modelled.) -/
def escapeChar (c : Char) : Text :=
  if c = '"' then ['\\', '"'] else if c = '\\' then ['\\', '\\'] else if c = '\n' then ['\\', 'n']
  else if c = '\r' then ['\\', 'r'] else if c = '\t' then ['\\', 't'] else [c]

/-- A JSON string. -/
def jsonString (t : Text) : Text := '"' :: t.flatMap escapeChar ++ ['"']

section
variable {α : Type} (repr : α → Text)

mutual
/-- `json.dumps`: separators `", "` and `": "`.  `repr` is `float.__repr__`. -/
def Json.dumps : Json α → Text
  | .int n => intText n
  | .real x => repr x
  | .str t => jsonString t
  | .arr l => '[' :: commaSep (dumpsAll l) ++ [']']
  | .obj l => '{' :: commaSep (dumpsMembers l) ++ ['}']
/-- The elements of a list. -/
def dumpsAll : List (Json α) → List Text
  | [] => []
  | j :: l => j.dumps :: dumpsAll l
/-- The members of a dictionary. -/
def dumpsMembers : List (Text × Json α) → List Text
  | [] => []
  | (k, j) :: l => (jsonString k ++ ':' :: ' ' :: j.dumps) :: dumpsMembers l
end

end

/-- `now.strftime("%Y.%m.%d")` (ensemble.py:65, 87, 144; shortest_path_run.py:38; rsbd_percolatioin_run.py:48). -/
def Stamp.dateText (t : Stamp) : Text := (pad 4 t.year ++ "." ++ pad 2 t.month ++ "." ++ pad 2 t.day).toList

/-- `now.strftime("%H:%M:%S")` (ensemble.py:66, 88, 145; shortest_path_run.py:39; rsbd_percolatioin_run.py:49). -/
def Stamp.timeText (t : Stamp) : Text := (pad 2 t.hour ++ ":" ++ pad 2 t.minute ++ ":" ++ pad 2 t.second).toList

variable {α : Type}

/-- A dictionary. -/
def dict (l : List (String × Json α)) : Json α := .obj (l.map fun p => (p.1.toList, p.2))

/-- A list of strings. -/
def strings (l : List String) : Json α := .arr (l.map fun s => .str s.toList)

/-- The dictionary `head` of the table files: ensemble.py:60-69, 82-90, 140-150; shortest_path_run.py:33-43. -/
def tableHead (L : Nat) (n : Int) (t : Stamp) (columns desc : List String) : Json α :=
  dict [("length", .int L), ("L", .int L), ("ensemble_size", .int n), ("En", .int n),
    ("date", .str t.dateText), ("time", .str t.timeText), ("columns", strings columns), ("desc", strings desc)]

/-- ensemble.py:89-90. -/
def critColumns : List String := ["pc", "wrapping cluster site count at pc", "wrapping cluster bond count at pc"]

/-- ensemble.py:90. -/
def critDesc : List String := ["pc=critical ocupation probability"]

/-- shortest_path_run.py:40. -/
def pathColumns : List String := ["pc", "p*"]

/-- shortest_path_run.py:41-43. -/
def pathDesc : List String := ["pc=critical ocupation probability",
  "p*=occupation probability for which the wrapping cluster creates a shortest path for the first time"]

/-- rsbd_percolatioin_run.py:36-52: the dictionary of the cross-check file. -/
def crossHead (L : Nat) (t : Stamp) (f : CrossFile α) : Json α :=
  dict [("length", .int L), ("L", .int L),
    ("site_id_sequence", .arr (f.siteIdSequence.map fun s : Nat => .int s)),
    ("site_index_sequence", .arr (f.siteIndexSequence.map fun p => .arr (p.map .int))),
    ("pc", .real f.pc), ("site_count_wrapping_cluster_pc", .int f.siteCount),
    ("bond_count_wrapping_cluster_pc", .int f.bondCount),
    ("entropy_list", .arr (f.entropyList.map .real)), ("order_largest_list", .arr (f.orderLargestList.map .real)),
    ("order_wrapping_list", .arr (f.orderWrappingList.map .real)),
    ("date", .str t.dateText), ("time", .str t.timeText), ("columns", strings headColumns), ("desc", strings headDesc)]

/-- The header line of a table file (`desc`: what is written as `head['desc']`), and the cross-check dictionary. -/
def FileData.head (L : Nat) (t : Stamp) (desc : List String) : FileData α → Json α
  | .table n _ => tableHead L n t headColumns desc
  | .critical n _ => tableHead L n t critColumns desc
  | .path n _ => tableHead L n t pathColumns desc
  | .cross f => crossHead L t f

/-- The contents of a file: `np.savetxt(filename, data, fmt="%.10e", header=json.dumps(head))`, or `f.write(json.dumps(head))`
(rsbd_percolatioin_run.py:55-56). -/
def FileData.text {K : Type} [Field K] [LinearOrder K] [FloorRing K] (repr : K → Text) (env : Env K) (L : Nat) (t : Stamp) (desc : List String)
    (d : FileData K) : Text :=
  match d with
  | .cross f => (crossHead L t f).dumps repr
  | d => saveText ((d.head L t desc).dumps repr) (d.rows env)

/-- A number in JSON as a float; `rd` is `float(…)`. -/
def JsonValue.number (rd : Text → Option α) : JsonValue → Option α
  | .num t => rd t
  | _ => none

/-- test_data_json.py:27-35: the values taken from the dictionary; `none` if something is missing. -/
def crossParts (rd : Text → Option α) (v : JsonValue) : Option (Nat × CrossFile α) := do
  let L ← (v.get "length").bind JsonValue.int
  let ids ← (v.get "site_id_sequence").bind fun x => x.items.bind (List.mapM JsonValue.int)
  let idxs ← (v.get "site_index_sequence").bind fun x => x.items.bind (List.mapM fun x => x.items.bind fun l => l.mapM JsonValue.int)
  let pc ← (v.get "pc").bind (JsonValue.number rd)
  let sites ← (v.get "site_count_wrapping_cluster_pc").bind JsonValue.int
  let bonds ← (v.get "bond_count_wrapping_cluster_pc").bind JsonValue.int
  let es ← (v.get "entropy_list").bind fun x => x.items.bind (List.mapM (JsonValue.number rd))
  let ls ← (v.get "order_largest_list").bind fun x => x.items.bind (List.mapM (JsonValue.number rd))
  let ws ← (v.get "order_wrapping_list").bind fun x => x.items.bind (List.mapM (JsonValue.number rd))
  return (L.toNat, ⟨ids.map Int.toNat, idxs, pc, sites.toNat, bonds.toNat, es, ls, ws⟩)

/-- test_data_json.py:22-35: `header = json.loads(f.readline())` (`json.loads` is the reader of Spec/Json; `none`: the line is no JSON text) and the
values taken from it. -/
def crossRead (rd : Text → Option α) (text : Text) : Option (Nat × CrossFile α) := (readJson ((lines text).headD [])).bind (crossParts rd)

/-- test_data_json.py:56-59: `for i in range(len(entropy_list))`: the three comparisons. -/
def crossCompare [DecidableEq α] (f g : CrossFile α) : List Nat → Py Unit
  | [] => .ok ()
  | i :: is => do
    let a ← pyGet f.entropyList i
    let b ← pyGet g.entropyList i
    if a ≠ b then .error .assertionError else
    let a ← pyGet f.orderLargestList i
    let b ← pyGet g.orderLargestList i
    if a ≠ b then .error .assertionError else
    let a ← pyGet f.orderWrappingList i
    let b ← pyGet g.orderWrappingList i
    if a ≠ b then .error .assertionError else
    crossCompare f g is

/-- test_data_json.py:21-60, the body of the loop of `test_L0_for_all_files`, for a file with the contents `text`.  `near` is
`abs(pc - pc_tmp) < 1e-6` (line 47).  A text that cannot be read raises (JSONDecodeError, which is a ValueError, or KeyError; here ValueError). -/
def crossTest [DecidableEq α] (env : Env α) (rd : Text → Option α) (near : α → α → Bool) (ctor draws : Nat → Nat) (fuel : Nat) (ds : Nat → Draw)
    (text : Text) : Py Unit :=
  match crossRead rd text with
  | none => .error .valueError
  | some (L, f) => do
    let g ← crossReplay env L ctor draws f fuel ds
    if near f.pc g.pc = false then .error .assertionError else
    if g.siteCount ≠ f.siteCount then .error .assertionError else
    if g.bondCount ≠ f.bondCount then .error .assertionError else
    crossCompare f g (List.range f.entropyList.length)

/-- test_data_json.py:13-14: the files that `get_file_list` finds, by their names in the directory. -/
def crossListed (name : Text) : Bool := "SitePercolationL0__percolation_cross_check_data_L".toList.isPrefixOf name

/-- The random numbers of one pass of the loop in `test_L0_for_all_files`. -/
structure CrossDraws where
  ctor : Nat → Nat
  draws : Nat → Nat
  steps : Nat → Draw

/-- test_data_json.py:18-61 `test_L0_for_all_files` for a directory with these names and contents. -/
def crossTestAll [DecidableEq α] (env : Env α) (rd : Text → Option α) (near : α → α → Bool) (fuel : Nat) :
    (Nat → CrossDraws) → List (Text × Text) → Py Unit
  | _, [] => .ok ()
  | o, (name, text) :: files =>
    if crossListed name then do
      crossTest env rd near (o 0).ctor (o 0).draws fuel (o 0).steps text
      crossTestAll env rd near fuel (fun i => o (i + 1)) files
    else crossTestAll env rd near fuel o files

end SqPerc
