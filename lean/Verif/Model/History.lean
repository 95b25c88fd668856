import Verif.Model.Ensemble
/-
Histories: what a user can do with one percolation object.
-/
namespace SqPerc

/-- A call of a state-changing public method of a percolation object, with the random numbers it uses.  All other public methods are
queries. -/
inductive Op
  /-- `place_one_site()` (percolation_sq_lattice.py:366-393) -/
  | place (d : Draw)
  /-- `detect_wrapping()` (percolation_sq_lattice.py:636-659) -/
  | detect
  /-- `reset()` (percolation_sq_lattice.py:244-271 and overrides) -/
  | reset (draws : Nat → Nat)
  /-- `shuffle()` (percolation_sq_lattice.py:204-221) -/
  | shuffle (draws : Nat → Nat)
  /-- `set_custome_site_id_list(ids, do_shuffle)` (percolation_sq_lattice.py:156-170) -/
  | setIds (ids : List Int) (doShuffle : Bool) (draws : Nat → Nat)
  /-- `set_custome_site_index_list(idxs, do_shuffle)` (percolation_sq_lattice.py:172-187) -/
  | setIndices (idxs : List (List Int)) (doShuffle : Bool) (draws : Nat → Nat)
  /-- `swap_ids(id1, id2)` (percolation_sq_lattice.py:234-242) -/
  | swapIds (id1 id2 : Nat)
  /-- `run_once()` (percolation_sq_lattice.py:663-721, percolation_sq_lattice_shortest_path.py:30-60) -/
  | runOnce (fuel : Nat) (ds : Nat → Draw)
  /-- `test_run_once()` (percolation_sq_lattice.py:723-751) -/
  | testRunOnce (fuel : Nat) (ds : Nat → Draw)

/-- The object after a call; an exception ends the history. -/
def step {α : Type} (env : Env α) (v : Variant) (S : Perc α) : Op → Py (Perc α)
  | .place d => do
    let r ← S.placeOneSite env v d
    return r.1
  | .detect => do
    let r ← S.detectWrapping
    return r.1
  | .reset draws => S.reset env v draws
  | .shuffle draws => S.shuffle draws
  | .setIds ids b draws => S.setCustomIds ids b draws
  | .setIndices idxs b draws => S.setCustomIndices idxs b draws
  | .swapIds i j => S.swapIds i j
  | .runOnce fuel ds => S.runOnceV env v fuel ds
  | .testRunOnce fuel ds => S.testRunOnce env v fuel ds

/-! ### Exceptions

The object a call leaves behind when it raises and the caller catches the exception.  C71 shows that in reachable states nothing raises
other than at the places named here. -/

/-- `place_one_site()` raises in `select_site`: the plain classes store `selected_id` and `current_site` before the assertion
(percolation_sq_lattice.py:358-360; `selection_flag` is not assigned); an IndexError on line 358 and the ValueError of `randint` for an
empty range (percolation_sq_lattice_L1L2.py:88, 199) leave the object as it was. -/
def Perc.placeRaised {α : Type} (v : Variant) (S : Perc α) : Perc α :=
  match v with
  | .l0 | .sp =>
    match S.siteIds[S.currentIdx]? with
    | some k => (match S.lat.getSite k with
      | .ok _ => { S with selected := some k }
      | .error _ => S)
    | none => S
  | .l1 | .l2 => S

/-- `swap_ids(id1, id2)` raises (percolation_sq_lattice.py:237-240): the first assignment to the list is kept if the second one raises. -/
def Perc.swapRaised {α : Type} (S : Perc α) (id1 id2 : Nat) : Perc α :=
  match S.revIds[id1]?, S.revIds[id2]? with
  | some ix1, some _ => { S with siteIds := S.siteIds.set ix1 id2 }
  | _, _ => S

/-- `run_once()` raises (percolation_sq_lattice.py:670-684): the object in the state of the loop. -/
def Perc.runRaised {α : Type} (env : Env α) (v : Variant) : Nat → (Nat → Draw) → Perc α → Perc α
  | 0, _, S => S
  | fuel + 1, ds, S =>
    match S.placeOneSite env v (ds 0) with
    | .error _ => S.placeRaised v
    | .ok (S, false) => S
    | .ok (S, true) =>
      if S.selectionFlag = some .success then
        match S.detectWrapping with
        | .error _ => S
        | .ok (S, _) =>
          match S.record env with
          | .error _ => S
          | .ok S => Perc.runRaised env v fuel (fun i => ds (i + 1)) S
      else Perc.runRaised env v fuel (fun i => ds (i + 1)) S

/-- `test_run_once()` raises (percolation_sq_lattice.py:730-748), in `place_one_site` or at the assertion after `detect_wrapping`. -/
def Perc.testRunRaised {α : Type} (env : Env α) (v : Variant) : Nat → (Nat → Draw) → Perc α → Perc α
  | 0, _, S => S
  | fuel + 1, ds, S =>
    match S.placeOneSite env v (ds 0) with
    | .error _ => S.placeRaised v
    | .ok (S, false) => S
    | .ok (S, true) =>
      if S.selectionFlag = some .success then
        match S.detectWrapping with
        | .error _ => S
        | .ok (S, true) => S
        | .ok (S, false) =>
          match S.record env with
          | .error _ => S
          | .ok S => Perc.testRunRaised env v fuel (fun i => ds (i + 1)) S
      else Perc.testRunRaised env v fuel (fun i => ds (i + 1)) S

/-- `ShortestPathAfter_pc.run_once()` raises (percolation_sq_lattice_shortest_path.py:37-56). -/
def Perc.spRaised {α : Type} (env : Env α) : Nat → Perc α → Perc α
  | 0, S => S
  | fuel + 1, S =>
    match S.placeOneSite env .sp ⟨0, 0⟩ with
    | .error _ => S.placeRaised .sp
    | .ok (S, false) => S
    | .ok (S, true) =>
      if S.selectionFlag = some .success then
        match S.detectWrapping with
        | .error _ => S
        | .ok (S, _) => Perc.spRaised env fuel S
      else Perc.spRaised env fuel S

/-- The object after a call that raised.  `detect_wrapping()` raises before it stores anything (percolation_sq_lattice.py:640-643), and so do
the `set_custome_*` methods (percolation_sq_lattice.py:162, 178-179); `reset()` and `shuffle()` do not raise. -/
def stepRaised {α : Type} (env : Env α) (v : Variant) (S : Perc α) : Op → Perc α
  | .place _ => S.placeRaised v
  | .swapIds i j => S.swapRaised i j
  | .runOnce fuel ds =>
    match v with
    | .sp => S.spRaised env fuel
    | .l0 | .l1 | .l2 => S.runRaised env v fuel ds
  | .testRunOnce fuel ds => S.testRunRaised env v fuel ds
  | .detect | .reset _ | .shuffle _ | .setIds _ _ _ | .setIndices _ _ _ => S

/-- The states of an object of class `v` and length `L` after any history of calls; exceptions are caught by the caller, who goes on using
the object.  (A call that does not return, `outOfFuel`, has no state after it.)  `write`: while a custom list is in use, others who hold the
same list object (percolation_sq_lattice.py:165 stores the argument itself, 223-224 returns it) may assign valid site ids to its entries at
any time between two calls. -/
inductive Reach {α : Type} (env : Env α) (v : Variant) (L : Nat) : Perc α → Prop
  | new {draws : Nat → Nat} {S : Perc α} : Perc.new env L draws = .ok S → Reach env v L S
  | step {S S' : Perc α} (op : Op) : Reach env v L S → SqPerc.step env v S op = .ok S' → Reach env v L S'
  | caught {S : Perc α} {e : PyErr} (op : Op) : Reach env v L S → SqPerc.step env v S op = .error e → e ≠ .outOfFuel →
      Reach env v L (stepRaised env v S op)
  | write {S : Perc α} (l : List Nat) : Reach env v L S → S.modeCustom = true → l.length = S.siteIds.length → (∀ x ∈ l, x < L * L) →
      Reach env v L { S with siteIds := l }

/-- A sequence of calls, each in `try … except`; `none` if one of them does not return. -/
def tryOps {α : Type} (env : Env α) (v : Variant) : List Op → Perc α → Option (Perc α)
  | [], S => some S
  | op :: ops, S =>
    match SqPerc.step env v S op with
    | .ok S' => tryOps env v ops S'
    | .error e => if e = .outOfFuel then none else tryOps env v ops (stepRaised env v S op)

/-- Calls that do not interfere with the site order: everything except `shuffle`, `swap_ids` and the `set_custome_*` methods. -/
def Op.isDefault : Op → Bool
  | .place _ | .detect | .reset _ | .runOnce _ _ | .testRunOnce _ _ => true
  | _ => false

/-- The states of an object in the default mode: histories of calls, raising or not, that do not interfere
with the site order. -/
inductive DefReach {α : Type} (env : Env α) (v : Variant) (L : Nat) : Perc α → Prop
  | new {draws : Nat → Nat} {S : Perc α} : Perc.new env L draws = .ok S → DefReach env v L S
  | step {S S' : Perc α} (op : Op) : op.isDefault = true → DefReach env v L S → SqPerc.step env v S op = .ok S' → DefReach env v L S'
  | caught {S : Perc α} {e : PyErr} (op : Op) : op.isDefault = true → DefReach env v L S → SqPerc.step env v S op = .error e →
      e ≠ .outOfFuel → DefReach env v L (stepRaised env v S op)

/-- `Trace env v L S seq`: histories in which `detect_wrapping()` is called right after every placement, as in the loops of `run_once`,
`test_run_once` (percolation_sq_lattice.py:670-684, 730-748) and `ShortestPathAfter_pc.run_once`
(percolation_sq_lattice_shortest_path.py:37-56).  `seq` lists the sites placed since the last reset, in order.  Other calls may occur in
between, also calls that raise, and anything may have happened before the last reset (`start`); the constructor `data` allows any change of the lists in which `run_once` collects its data, of `first_run` and of the stored
shortest path point, so that every state inside a run is a state of a trace.  `write` allows any assignments to the list of site ids by others. -/
inductive Trace {α : Type} (env : Env α) (v : Variant) (L : Nat) : Perc α → List Nat → Prop
  | new {draws : Nat → Nat} {S : Perc α} : Perc.new env L draws = .ok S → Trace env v L S []
  | placed {S S1 S2 : Perc α} {seq : List Nat} {d : Draw} {b w : Bool} {k : Nat} : Trace env v L S seq →
      S.placeOneSite env v d = .ok (S1, b) → S1.selectionFlag = some .success → S1.selected = some k →
      S1.detectWrapping = .ok (S2, w) → Trace env v L S2 (seq ++ [k])
  | skipped {S S1 : Perc α} {seq : List Nat} {d : Draw} {b : Bool} : Trace env v L S seq →
      S.placeOneSite env v d = .ok (S1, b) → S1.selectionFlag ≠ some .success → Trace env v L S1 seq
  | detect {S S1 : Perc α} {seq : List Nat} {w : Bool} : Trace env v L S seq → S.detectWrapping = .ok (S1, w) → Trace env v L S1 seq
  | start {S S1 : Perc α} {draws : Nat → Nat} : Reach env v L S → S.reset env v draws = .ok S1 → Trace env v L S1 []
  | reset {S S1 : Perc α} {seq : List Nat} {draws : Nat → Nat} : Trace env v L S seq → S.reset env v draws = .ok S1 → Trace env v L S1 []
  | shuffle {S S1 : Perc α} {seq : List Nat} {draws : Nat → Nat} : Trace env v L S seq → S.shuffle draws = .ok S1 → Trace env v L S1 seq
  | setIds {S S1 : Perc α} {seq : List Nat} {ids : List Int} {b : Bool} {draws : Nat → Nat} : Trace env v L S seq →
      S.setCustomIds ids b draws = .ok S1 → Trace env v L S1 seq
  | setIndices {S S1 : Perc α} {seq : List Nat} {idxs : List (List Int)} {b : Bool} {draws : Nat → Nat} : Trace env v L S seq →
      S.setCustomIndices idxs b draws = .ok S1 → Trace env v L S1 seq
  | swapIds {S S1 : Perc α} {seq : List Nat} {i j : Nat} : Trace env v L S seq → S.swapIds i j = .ok S1 → Trace env v L S1 seq
  | raised {S : Perc α} {seq : List Nat} {d : Draw} {e : PyErr} : Trace env v L S seq → S.placeOneSite env v d = .error e →
      Trace env v L (S.placeRaised v) seq
  | swapRaised {S : Perc α} {seq : List Nat} {i j : Nat} {e : PyErr} : Trace env v L S seq → S.swapIds i j = .error e →
      Trace env v L (S.swapRaised i j) seq
  | data {S : Perc α} {seq : List Nat} (fr : Bool) (l1 l2 l3 l4 : List α) (p : α) : Trace env v L S seq →
      Trace env v L { S with firstRun := fr, occProbList := l1, entropyList := l2, orderWrapList := l3, orderLargestList := l4,
                             shortestP := p } seq
  | write {S : Perc α} {seq : List Nat} (l : List Nat) : Trace env v L S seq → Trace env v L { S with siteIds := l } seq

end SqPerc
