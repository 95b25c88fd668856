import Verif.Proof.Arrays
import Verif.Props.Raised
/-
C77: the result lists an object hands out.
-/
namespace SqPerc

variable {α : Type} {L : Nat} {env : Env α} {v : Variant} {w w' : Shared α} {r : Nat}

/-! ### Specification -/

/-- An object with its result lists, after any history of calls; the caller may have written to any list. -/
inductive SReach (env : Env α) (v : Variant) (L : Nat) : Shared α → Prop
  | new {draws : Nat → Nat} {w : Shared α} : Shared.new env L draws = .ok w → SReach env v L w
  | step {w w' : Shared α} (op : SOp α) : SReach env v L w → w.step env v op = some w' → SReach env v L w'

/-- The same, but the caller has never written to a list the object was still working with. -/
inductive SClean (env : Env α) (v : Variant) (L : Nat) : Shared α → Prop
  | new {draws : Nat → Nat} {w : Shared α} : Shared.new env L draws = .ok w → SClean env v L w
  | step {w w' : Shared α} (op : SOp α) : SClean env v L w → (∀ (r : Nat) (xs : List α), op = .write r xs → r ∉ w.arrays) → w.step env v op = some w' →
      SClean env v L w'

/-- The caller does not write to `r`. -/
def NoWrite (r : Nat) (op : SOp α) : Prop := ∀ xs, op ≠ .write r xs

/-- The usual program for an ensemble: `reset()`, `run_once()`, `get_entropy_array()`, once for every entry.  The second result
is what the caller would have if the list was copied each time. -/
def Shared.collect (env : Env α) (v : Variant) : List ((Nat → Nat) × Nat × (Nat → Draw)) → Shared α → Option (List Nat × List (List α) × Shared α)
  | [], w => some ([], [], w)
  | (draws, fuel, ds) :: rest, w =>
    match w.step env v (.call (.reset draws)) with
    | none => none
    | some w1 =>
      match w1.step env v (.call (.runOnce fuel ds)) with
      | none => none
      | some w2 =>
        match Shared.collect env v rest w2 with
        | none => none
        | some (rs, cs, w3) => some (w2.ent :: rs, w2.listAt w2.ent :: cs, w3)

/-! ### Proofs -/

theorem Shared.mem_arrays : r ∈ w.arrays ↔ r = w.prob ∨ r = w.ent ∨ r = w.wrap ∨ r = w.lrg := by
  simp only [Shared.arrays, List.mem_cons, List.not_mem_nil, or_false]

theorem Shared.listAt_set {heap : List (List α)} {r s : Nat} {xs : List α} (hs : s < heap.length) :
    ((heap.set s xs)[r]?).getD [] = if r = s then xs else (heap[r]?).getD [] := by
  by_cases h : r = s
  · rw [if_pos h, h, List.getElem?_set_self hs]; rfl
  · rw [if_neg h, List.getElem?_set_ne (fun e => h e.symm)]

/-- The invariant. -/
structure Shared.Inv (w : Shared α) (env : Env α) (L : Nat) : Prop where
  bound : ∀ r ∈ w.arrays, r < w.heap.length
  nodup : w.arrays.Nodup
  sim : ∃ A, Sim env L w.load A ∧ AReach env L A

theorem Shared.Inv.bounds (I : w.Inv env L) : w.prob < w.heap.length ∧ w.ent < w.heap.length ∧ w.wrap < w.heap.length ∧ w.lrg < w.heap.length := by
  have := I.bound
  refine ⟨this _ ?_, this _ ?_, this _ ?_, this _ ?_⟩ <;> simp [Shared.arrays]

theorem Shared.Inv.ne (I : w.Inv env L) : w.prob ≠ w.ent ∧ w.prob ≠ w.wrap ∧ w.prob ≠ w.lrg ∧ w.ent ≠ w.wrap ∧ w.ent ≠ w.lrg ∧ w.wrap ≠ w.lrg := by
  have := I.nodup
  simp only [Shared.arrays, List.nodup_cons, List.mem_cons, List.not_mem_nil, not_or, or_false] at this
  exact ⟨this.1.1, this.1.2.1, this.1.2.2, this.2.1.1, this.2.1.2, this.2.2.1⟩

theorem Shared.store_length (S : Perc α) : (w.store S).heap.length = w.heap.length := by
  simp only [Shared.store, List.length_set]

theorem Shared.Inv.store_at (I : w.Inv env L) (S : Perc α) (r : Nat) : (w.store S).listAt r =
    if r = w.lrg then S.orderLargestList else if r = w.wrap then S.orderWrapList else if r = w.ent then S.entropyList
    else if r = w.prob then S.occProbList else w.listAt r := by
  obtain ⟨b1, b2, b3, b4⟩ := I.bounds
  show (((((w.heap.set w.prob S.occProbList).set w.ent S.entropyList).set w.wrap S.orderWrapList).set w.lrg S.orderLargestList)[r]?).getD [] = _
  rw [Shared.listAt_set (by simpa using b4), Shared.listAt_set (by simpa using b3), Shared.listAt_set (by simpa using b2), Shared.listAt_set b1]
  rfl

/-- No other list is touched. -/
theorem Shared.store_other (S : Perc α) (hr : r ∉ w.arrays) : (w.store S).listAt r = w.listAt r := by
  rw [Shared.mem_arrays, not_or, not_or, not_or] at hr
  obtain ⟨h1, h2, h3, h4⟩ := hr
  show (((((w.heap.set w.prob S.occProbList).set w.ent S.entropyList).set w.wrap S.orderWrapList).set w.lrg S.orderLargestList)[r]?).getD [] = _
  rw [List.getElem?_set_ne (Ne.symm h4), List.getElem?_set_ne (Ne.symm h3), List.getElem?_set_ne (Ne.symm h2), List.getElem?_set_ne (Ne.symm h1)]
  rfl

theorem Shared.Inv.store_lists (I : w.Inv env L) (S : Perc α) : (w.store S).listAt w.prob = S.occProbList ∧ (w.store S).listAt w.ent = S.entropyList ∧
    (w.store S).listAt w.wrap = S.orderWrapList ∧ (w.store S).listAt w.lrg = S.orderLargestList := by
  obtain ⟨n1, n2, n3, n4, n5, n6⟩ := I.ne
  refine ⟨?_, ?_, ?_, ?_⟩ <;> rw [I.store_at]
  · rw [if_neg n3, if_neg n2, if_neg n1, if_pos rfl]
  · rw [if_neg n5, if_neg n4, if_pos rfl]
  · rw [if_neg n6, if_pos rfl]
  · rw [if_pos rfl]

theorem Shared.Inv.store_load (I : w.Inv env L) (S : Perc α) : (w.store S).load = S := by
  obtain ⟨h1, h2, h3, h4⟩ := I.store_lists S
  show { S with occProbList := (w.store S).listAt w.prob, entropyList := (w.store S).listAt w.ent, orderWrapList := (w.store S).listAt w.wrap,
                orderLargestList := (w.store S).listAt w.lrg } = S
  rw [h1, h2, h3, h4]

theorem Shared.Inv.store (I : w.Inv env L) {S : Perc α} (hS : ∃ A, Sim env L S A ∧ AReach env L A) : (w.store S).Inv env L := by
  refine ⟨fun r hr => ?_, I.nodup, ?_⟩
  · rw [Shared.store_length]; exact I.bound r hr
  · rw [I.store_load]; exact hS

theorem Shared.append_at {l m : List (List α)} (hr : r < l.length) : ((l ++ m)[r]?).getD [] = (l[r]?).getD [] := by
  rw [List.getElem?_append_left hr]

theorem Shared.append_new {l m : List (List α)} (k : Nat) : ((l ++ m)[l.length + k]?).getD [] = (m[k]?).getD [] := by
  rw [List.getElem?_append_right (by omega), Nat.add_sub_cancel_left]

/-- What `reset` does to the lists. -/
theorem Shared.Inv.renew_lists (I : w.Inv env L) {S : Perc α} (hp : w.obj.firstRun = false → S.occProbList = w.listAt w.prob) :
    (∀ r < w.heap.length, (w.renew S).listAt r = w.listAt r) ∧ w.heap.length ≤ (w.renew S).heap.length ∧
    (w.renew S).load = S ∧ (w.renew S).arrays.Nodup ∧ (∀ r ∈ (w.renew S).arrays, r < (w.renew S).heap.length) ∧
    (∀ r ∈ (w.renew S).arrays, r = w.prob ∨ w.heap.length ≤ r) ∧
    (w.heap.length ≤ (w.renew S).ent ∧ w.heap.length ≤ (w.renew S).wrap ∧ w.heap.length ≤ (w.renew S).lrg) ∧
    (w.obj.firstRun = true → w.heap.length ≤ (w.renew S).prob) ∧ (w.obj.firstRun = false → (w.renew S).prob = w.prob) := by
  obtain ⟨b1, _⟩ := I.bounds
  cases hf : w.obj.firstRun with
  | true =>
    have e : w.renew S = ⟨w.heap ++ [S.occProbList, S.entropyList, S.orderWrapList, S.orderLargestList], S, w.heap.length, w.heap.length + 1,
        w.heap.length + 2, w.heap.length + 3⟩ := by rw [Shared.renew, if_pos hf]
    rw [e]
    refine ⟨fun r hr => Shared.append_at hr, by simp, ?_, by simp [Shared.arrays], by simp [Shared.arrays], by simp [Shared.arrays],
      ⟨by simp, by simp, by simp⟩, fun _ => le_refl _, fun h => (by cases h)⟩
    show { S with occProbList := ((w.heap ++ [S.occProbList, S.entropyList, S.orderWrapList, S.orderLargestList])[w.heap.length + 0]?).getD [], entropyList := _, orderWrapList := _, orderLargestList := _ } = S
    simp only [Shared.listAt]
    rw [Shared.append_new, Shared.append_new, Shared.append_new, Shared.append_new]
    rfl
  | false =>
    have e : w.renew S = ⟨w.heap ++ [S.entropyList, S.orderWrapList, S.orderLargestList], S, w.prob, w.heap.length, w.heap.length + 1,
        w.heap.length + 2⟩ := by rw [Shared.renew, if_neg (by rw [hf]; simp)]
    rw [e]
    refine ⟨fun r hr => Shared.append_at hr, by simp, ?_, ?_, ?_, by simp [Shared.arrays],
      ⟨by simp, by simp, by simp⟩, fun h => (by cases h), fun _ => rfl⟩
    · show { S with occProbList := ((w.heap ++ [S.entropyList, S.orderWrapList, S.orderLargestList])[w.prob]?).getD [], entropyList := ((w.heap ++ [S.entropyList, S.orderWrapList, S.orderLargestList])[w.heap.length + 0]?).getD [], orderWrapList := _, orderLargestList := _ } = S
      simp only [Shared.listAt]
      rw [Shared.append_new, Shared.append_new, Shared.append_new, Shared.append_at b1, ← Shared.listAt, ← hp hf]
      rfl
    · simp only [Shared.arrays, List.nodup_cons, List.mem_cons, List.not_mem_nil, or_false, not_or, not_false_eq_true, List.nodup_nil, and_true]
      omega
    · intro r hr
      rw [Shared.mem_arrays] at hr
      simp only [List.length_append, List.length_cons, List.length_nil] at hr ⊢
      omega

/-- A call, in terms of the values. -/
theorem Shared.step_call {op : Op} (hs : w.step env v (.call op) = some w') :
    (∃ S, SqPerc.step env v w.load op = .ok S ∧ w' = if op.isReset then w.renew S else w.store S) ∨
    (op.isReset = false ∧ ∃ e, SqPerc.step env v w.load op = .error e ∧ e ≠ .outOfFuel ∧ w' = w.store (stepRaised env v w.load op)) := by
  cases ho : op.isReset with
  | true =>
    cases op with
    | reset draws =>
      simp only [Shared.step] at hs
      cases h : w.load.reset env v draws with
      | ok S => rw [h] at hs; exact Or.inl ⟨S, h, (Option.some.inj hs).symm⟩
      | error e => rw [h] at hs; cases hs
    | _ => cases ho
  | false =>
    replace hs : (match SqPerc.step env v w.load op with
      | .ok S => some (w.store S)
      | .error e => if e = .outOfFuel then none else some (w.store (stepRaised env v w.load op))) = some w' := by
      cases op <;> first | exact hs | cases ho
    cases h : SqPerc.step env v w.load op with
    | ok S => rw [h] at hs; exact Or.inl ⟨S, rfl, (Option.some.inj hs).symm⟩
    | error e =>
      rw [h] at hs
      replace hs : (if e = .outOfFuel then none else some (w.store (stepRaised env v w.load op))) = some w' := hs
      by_cases he : e = .outOfFuel
      · rw [if_pos he] at hs; cases hs
      · rw [if_neg he] at hs; exact Or.inr ⟨rfl, e, rfl, he, (Option.some.inj hs).symm⟩

theorem Shared.reset_prob {S : Perc α} {draws : Nat → Nat} (h : w.load.reset env v draws = .ok S) :
    w.obj.firstRun = false → S.occProbList = w.listAt w.prob := by
  intro hf
  rw [(reset_lists h).2.2.2.2, if_neg (by show ¬ w.obj.firstRun = true; rw [hf]; simp)]
  rfl

theorem Shared.Inv.call (I : w.Inv env L) {op : Op} (hs : w.step env v (.call op) = some w') : w'.Inv env L ∧
    ((SqPerc.step env v w.load op = .ok w'.load) ∨ (∃ e, SqPerc.step env v w.load op = .error e ∧ e ≠ .outOfFuel ∧ w'.load = stepRaised env v w.load op)) := by
  rcases Shared.step_call hs with ⟨S, h, e⟩ | ⟨ho', x, h, hx, e⟩
  · cases ho : op.isReset with
    | false =>
      rw [ho] at e
      replace e : w' = w.store S := e
      rw [e]
      exact ⟨I.store (simStep I.sim h), Or.inl (by rw [I.store_load]; exact h)⟩
    | true =>
      rw [ho] at e
      replace e : w' = w.renew S := e
      cases op with
      | reset draws =>
        obtain ⟨_, _, h3, h4, h5, _⟩ := I.renew_lists (Shared.reset_prob h)
        rw [e]
        refine ⟨⟨h5, h4, ?_⟩, Or.inl (by rw [h3]; exact h)⟩
        rw [h3]; exact simStep I.sim h
      | _ => cases ho
  · rw [e]
    exact ⟨I.store (simRaised I.sim h), Or.inr ⟨x, h, hx, I.store_load _⟩⟩

theorem Shared.write_at (w : Shared α) (r s : Nat) (xs : List α) (h : s ≠ r) : ({ w with heap := w.heap.set r xs } : Shared α).listAt s = w.listAt s := by
  show ((w.heap.set r xs)[s]?).getD [] = _
  rw [List.getElem?_set_ne (Ne.symm h)]
  rfl

theorem Shared.Inv.write (I : w.Inv env L) (r : Nat) (xs : List α) : ({ w with heap := w.heap.set r xs } : Shared α).Inv env L := by
  refine ⟨fun s hs => ?_, I.nodup, ?_⟩
  · rw [List.length_set]; exact I.bound s hs
  · obtain ⟨A, M, hA⟩ := I.sim
    exact ⟨A, M.aux rfl rfl rfl rfl rfl rfl rfl rfl rfl rfl rfl rfl rfl rfl, hA⟩

theorem Shared.new_eq {draws : Nat → Nat} (h : Shared.new env L draws = .ok w) : ∃ S, Perc.new env L draws = .ok S ∧
    w = ⟨[S.occProbList, S.entropyList, S.orderWrapList, S.orderLargestList], S, 0, 1, 2, 3⟩ := by
  simp only [Shared.new] at h
  cases hn : Perc.new env L draws with
  | error e => rw [hn] at h; cases h
  | ok S => rw [hn] at h; exact ⟨S, rfl, (Except.ok.inj h).symm⟩

theorem Shared.new_inv {draws : Nat → Nat} (h : Shared.new env L draws = .ok w) : w.Inv env L ∧ Perc.new env L draws = .ok w.load := by
  obtain ⟨S, hn, rfl⟩ := Shared.new_eq h
  have e : (Shared.mk [S.occProbList, S.entropyList, S.orderWrapList, S.orderLargestList] S 0 1 2 3).load = S := rfl
  refine ⟨⟨by simp [Shared.arrays], by simp [Shared.arrays], ?_⟩, hn⟩
  rw [e]
  exact (Reach.new (v := .l0) hn).sim.2

theorem SReach.inv (h : SReach env v L w) : w.Inv env L := by
  induction h with
  | new h => exact (Shared.new_inv h).1
  | step op _ hs ih =>
    cases op with
    | call op => exact (ih.call hs).1
    | write r xs => rw [← Option.some.inj hs]; exact ih.write r xs

theorem SClean.reach (h : SClean env v L w) : SReach env v L w := by
  induction h with
  | new h => exact .new h
  | step op _ _ hs ih => exact .step op ih hs

theorem Shared.write_load (xs : List α) (hr : r ∉ w.arrays) : ({ w with heap := w.heap.set r xs } : Shared α).load = w.load := by
  rw [Shared.mem_arrays, not_or, not_or, not_or] at hr
  obtain ⟨h1, h2, h3, h4⟩ := hr
  simp only [Shared.load]
  rw [Shared.write_at w r _ xs (Ne.symm h1), Shared.write_at w r _ xs (Ne.symm h2), Shared.write_at w r _ xs (Ne.symm h3), Shared.write_at w r _ xs (Ne.symm h4)]

/-! ### The claims -/

/-- C77: a caller who never writes to a list the object still works with may think of the lists as values: what the object then reports is
what the rest of the model says (`Reach`), and its four lists are four different list objects. -/
theorem C77_values (h : SClean env v L w) : Reach env v L w.load ∧ w.arrays.Nodup ∧ ∀ r ∈ w.arrays, r < w.heap.length := by
  refine ⟨?_, h.reach.inv.nodup, h.reach.inv.bound⟩
  induction h with
  | new h => exact .new (Shared.new_inv h).2
  | step op hw hn hs ih =>
    cases op with
    | call op =>
      rcases (hw.reach.inv.call hs).2 with h1 | ⟨e, h1, h2, h3⟩
      · exact .step op ih h1
      · rw [h3]; exact .caught op ih h1 h2
    | write r xs =>
      rw [← Option.some.inj hs, Shared.write_load xs (hn r xs rfl)]
      exact ih

/-- C77: a call other than `reset`, raising or not, keeps the four list objects and only appends to them; it does nothing to other lists. -/
theorem C77_extends (h : SReach env v L w) {op : Op} (ho : op.isReset = false) (hs : w.step env v (.call op) = some w') :
    w'.arrays = w.arrays ∧ ∀ r, w.listAt r <+: w'.listAt r ∧ (r ∉ w.arrays → w'.listAt r = w.listAt r) := by
  have I := h.inv
  have key : ∀ S : Perc α, Extended w.load S → w' = w.store S →
      w'.arrays = w.arrays ∧ ∀ r, w.listAt r <+: w'.listAt r ∧ (r ∉ w.arrays → w'.listAt r = w.listAt r) := by
    rintro S g rfl
    refine ⟨rfl, fun r => ⟨?_, Shared.store_other S⟩⟩
    obtain ⟨h1, h2, h3, h4⟩ := I.store_lists S
    by_cases hr : r ∈ w.arrays
    · rw [Shared.mem_arrays] at hr
      rcases hr with rfl | rfl | rfl | rfl
      · rw [h1]; exact g.prob
      · rw [h2]; exact g.ent
      · rw [h3]; exact g.wrap
      · rw [h4]; exact g.lrg
    · rw [Shared.store_other S hr]
  rcases Shared.step_call hs with ⟨S, h, e⟩ | ⟨ho', x, h, hx, e⟩
  · rw [ho] at e
    exact key S (step_grow I.sim ho h) e
  · exact key _ (stepRaised_grow I.sim h) e

/-- C77: `reset` changes none of the list objects.  Afterwards `get_entropy_array` and the two `get_order_param_*_array` return new list objects,
which are empty; `get_occupation_prob_array` returns a new empty one if no run has been completed, and the same one otherwise. -/
theorem C77_reset (h : SReach env v L w) {draws : Nat → Nat} (hs : w.step env v (.call (.reset draws)) = some w') :
    (∀ r < w.heap.length, w'.listAt r = w.listAt r) ∧
    (∀ r ∈ [w'.ent, w'.wrap, w'.lrg], w.heap.length ≤ r ∧ w'.listAt r = []) ∧
    (w.obj.firstRun = true → w.heap.length ≤ w'.prob ∧ w'.listAt w'.prob = []) ∧ (w.obj.firstRun = false → w'.prob = w.prob) := by
  have I := h.inv
  rcases Shared.step_call hs with ⟨S, h, e⟩ | ⟨ho', x, h, hx, e⟩
  · replace e : w' = w.renew S := e
    subst e
    obtain ⟨h1, h2, h3, h4, h5, h6, ⟨h7, h8, h9⟩, h10, h11⟩ := I.renew_lists (Shared.reset_prob h)
    obtain ⟨r1, r2, r3, r4, r5⟩ := reset_lists h
    rw [← h3] at r1 r2 r3 r5
    refine ⟨h1, ?_, fun hf => ⟨h10 hf, ?_⟩, h11⟩
    · intro r hr
      simp only [List.mem_cons, List.not_mem_nil, or_false] at hr
      rcases hr with rfl | rfl | rfl
      · exact ⟨h7, r1⟩
      · exact ⟨h8, r2⟩
      · exact ⟨h9, r3⟩
    · rw [if_pos (by exact hf)] at r5
      exact r5
  · cases ho'

theorem Shared.step_other {op : SOp α} (hr : r < w.heap.length) (ha : r ∉ w.arrays) (hw : NoWrite r op) (hs : w.step env v op = some w') :
    w'.listAt r = w.listAt r ∧ r ∉ w'.arrays ∧ r < w'.heap.length := by
  cases op with
  | write s xs =>
    rw [← Option.some.inj hs]
    exact ⟨Shared.write_at w s r xs (fun e => hw xs (by rw [e])), ha, by rw [List.length_set]; exact hr⟩
  | call op =>
    have hst : ∀ S : Perc α, w' = w.store S → w'.listAt r = w.listAt r ∧ r ∉ w'.arrays ∧ r < w'.heap.length := by
      rintro S rfl
      exact ⟨Shared.store_other S ha, ha, by rw [Shared.store_length]; exact hr⟩
    rcases Shared.step_call hs with ⟨S, h, e⟩ | ⟨_, x, h, hx, e⟩
    · cases ho : op.isReset with
      | false => rw [ho] at e; exact hst S e
      | true =>
        rw [ho] at e
        replace e : w' = w.renew S := e
        rw [Shared.mem_arrays, not_or, not_or, not_or] at ha
        rw [e, Shared.renew]
        split
        · refine ⟨Shared.append_at hr, ?_, by simp; omega⟩
          rw [Shared.mem_arrays]; simp only; omega
        · refine ⟨Shared.append_at hr, ?_, by simp; omega⟩
          rw [Shared.mem_arrays]; simp only; omega
    · exact hst _ e

/-- C77: a list object the object does not work with any more is changed by nobody but the caller: whatever calls follow, including runs
and resets, it keeps its entries. -/
theorem C77_kept {ops : List (SOp α)} (hr : r < w.heap.length) (ha : r ∉ w.arrays) (hw : ∀ op ∈ ops, NoWrite r op)
    (hs : w.steps env v ops = some w') : w'.listAt r = w.listAt r ∧ r ∉ w'.arrays := by
  induction ops generalizing w with
  | nil => rw [← Option.some.inj hs]; exact ⟨rfl, ha⟩
  | cons op ops ih =>
    simp only [Shared.steps] at hs
    cases h : w.step env v op with
    | none => rw [h] at hs; cases hs
    | some w1 =>
      rw [h] at hs
      obtain ⟨h1, h2, h3⟩ := Shared.step_other hr ha (hw op (List.mem_cons_self ..)) h
      obtain ⟨h4, h5⟩ := ih h3 h2 (fun o ho => hw o (List.mem_cons_of_mem _ ho)) hs
      exact ⟨h4.trans h1, h5⟩

/-- C77: so a list obtained from `get_entropy_array` or `get_order_param_*_array` has its final entries when `reset` is called. -/
theorem C77_final (h : SReach env v L w) {ops : List (SOp α)} {draws : Nat → Nat} (hr : r ∈ [w.ent, w.wrap, w.lrg]) (hw : ∀ op ∈ ops, NoWrite r op)
    (hs : w.steps env v (.call (.reset draws) :: ops) = some w') : w'.listAt r = w.listAt r ∧ r ∉ w'.arrays := by
  have I := h.inv
  simp only [Shared.steps] at hs
  cases h1 : w.step env v (.call (.reset draws)) with
  | none => rw [h1] at hs; cases hs
  | some w1 =>
    rw [h1] at hs
    have hb : r < w.heap.length := I.bound r (List.mem_cons_of_mem _ hr)
    have hp : r ≠ w.prob := by
      have := I.nodup
      rw [Shared.arrays, List.nodup_cons] at this
      exact fun e => this.1 (e ▸ hr)
    rcases Shared.step_call h1 with ⟨S, h2, e⟩ | ⟨ho', _⟩
    · replace e : w1 = w.renew S := e
      subst e
      obtain ⟨g1, g2, g3, g4, g5, g6, _⟩ := I.renew_lists (Shared.reset_prob h2)
      have := C77_kept (w := w.renew S) (by omega) (fun hm => by rcases g6 r hm with h | h; exact hp h; omega) hw hs
      exact ⟨this.1.trans (g1 r hb), this.2⟩
    · cases ho'

/-- C77: once a run has been completed `get_occupation_prob_array` returns the same list object for ever, and no call changes its entries. -/
theorem C77_occupation (h : SReach env v L w) (hf : w.obj.firstRun = false) {ops : List (SOp α)} (hw : ∀ op ∈ ops, NoWrite w.prob op)
    (hs : w.steps env v ops = some w') : w'.prob = w.prob ∧ w'.listAt w.prob = w.listAt w.prob ∧ w'.obj.firstRun = false := by
  induction ops generalizing w with
  | nil => rw [← Option.some.inj hs]; exact ⟨rfl, rfl, hf⟩
  | cons op ops ih =>
    simp only [Shared.steps] at hs
    cases h1 : w.step env v op with
    | none => rw [h1] at hs; cases hs
    | some w1 =>
      rw [h1] at hs
      have key : w1.prob = w.prob ∧ w1.listAt w.prob = w.listAt w.prob ∧ w1.obj.firstRun = false := by
        have I := h.inv
        cases op with
        | write s xs =>
          rw [← Option.some.inj h1]
          exact ⟨rfl, Shared.write_at w s _ xs (fun e => hw _ (List.mem_cons_self ..) xs (by rw [e])), hf⟩
        | call op =>
          have hst : ∀ S : Perc α, Extended w.load S → w1 = w.store S →
              w1.prob = w.prob ∧ w1.listAt w.prob = w.listAt w.prob ∧ w1.obj.firstRun = false := by
            rintro S g rfl
            refine ⟨rfl, ?_, (g.done hf).1⟩
            rw [(I.store_lists S).1, (g.done hf).2]
            rfl
          rcases Shared.step_call h1 with ⟨S, h, e⟩ | ⟨_, x, h, hx, e⟩
          · cases ho : op.isReset with
            | false => rw [ho] at e; exact hst S (step_grow I.sim ho h) e
            | true =>
              rw [ho] at e
              replace e : w1 = w.renew S := e
              cases op with
              | reset draws =>
                subst e
                obtain ⟨g1, g2, g3, g4, g5, g6, _, _, g9⟩ := I.renew_lists (Shared.reset_prob h)
                refine ⟨g9 hf, g1 _ I.bounds.1, ?_⟩
                have : (w.renew S).load.firstRun = w.obj.firstRun := by rw [g3]; exact (reset_lists h).2.2.2.1
                exact this.trans hf
              | _ => cases ho
          · exact hst _ (stepRaised_grow I.sim h) e
      have := ih (.step op h h1) key.2.2 (fun o ho => by rw [key.1]; exact hw o (List.mem_cons_of_mem _ ho)) hs
      rw [key.1] at this
      exact ⟨this.1, this.2.1.trans key.2.1, this.2.2⟩

/-- C77: and what a caller writes to a list the object does not work with any more has no effect on the object. -/
theorem C77_write (hr : r ∉ w.arrays) (xs : List α) (hs : w.step env v (.write r xs) = some w') : w'.load = w.load := by
  rw [← Option.some.inj hs]; exact Shared.write_load xs hr

theorem Shared.collect_keep (env : Env α) (v : Variant) (L : Nat) : ∀ {runs : List ((Nat → Nat) × Nat × (Nat → Draw))} {w w' : Shared α} {rs : List Nat} {cs : List (List α)},
    SReach env v L w → Shared.collect env v runs w = some (rs, cs, w') →
    rs.map w'.listAt = cs ∧ rs.Nodup ∧ (∀ r ∈ rs, w.heap.length ≤ r) ∧ (∀ r < w.heap.length, r ≠ w.prob → w'.listAt r = w.listAt r) ∧
    w.heap.length ≤ w'.heap.length := by
  intro runs
  induction runs with
  | nil =>
    intro w w' rs cs h e
    simp only [Shared.collect, Option.some.injEq, Prod.mk.injEq] at e
    obtain ⟨rfl, rfl, rfl⟩ := e
    exact ⟨rfl, List.nodup_nil, fun _ h => (by cases h), fun _ _ _ => rfl, le_refl _⟩
  | cons run runs ih =>
    obtain ⟨draws, fuel, ds⟩ := run
    intro w w' rs cs h e
    simp only [Shared.collect] at e
    cases h1 : w.step env v (.call (.reset draws)) with
    | none => rw [h1] at e; cases e
    | some w1 =>
      rw [h1] at e
      simp only at e
      have hw1 := SReach.step _ h h1
      cases h2 : w1.step env v (.call (.runOnce fuel ds)) with
      | none => rw [h2] at e; cases e
      | some w2 =>
        rw [h2] at e
        simp only at e
        have hw2 := SReach.step _ hw1 h2
        cases h3 : Shared.collect env v runs w2 with
        | none => rw [h3] at e; cases e
        | some q =>
          obtain ⟨rs', cs', w3⟩ := q
          rw [h3] at e
          simp only [Option.some.injEq, Prod.mk.injEq] at e
          obtain ⟨rfl, rfl, rfl⟩ := e
          obtain ⟨i1, i2, i3, i4, i5⟩ := ih hw2 h3
          have I := h.inv
          have I2 := hw2.inv
          obtain ⟨r1, r2, r3, r4⟩ := C77_reset h h1
          obtain ⟨x1, x2⟩ := C77_extends hw1 (by rfl) h2
          have he : w2.ent = w1.ent := by
            have := congrArg (·[1]?) x1
            exact Option.some.inj this
          have hpr : w2.prob = w1.prob := by
            have := congrArg (·[0]?) x1
            exact Option.some.inj this
          have hlen : w.heap.length ≤ w2.heap.length := by
            have := (r2 w1.ent (by simp)).1
            have := I2.bounds.2.1
            omega
          have hent : w3.listAt w2.ent = w2.listAt w2.ent := i4 _ I2.bounds.2.1 (fun h => I2.ne.1 h.symm)
          refine ⟨?_, ?_, ?_, ?_, by omega⟩
          · rw [List.map_cons, hent, i1]
          · refine List.nodup_cons.2 ⟨fun hm => ?_, i2⟩
            have := i3 _ hm
            have := I2.bounds.2.1
            omega
          · intro r hr
            rcases List.mem_cons.1 hr with rfl | hr
            · rw [he]; exact (r2 w1.ent (by simp)).1
            · have := i3 r hr; omega
          · intro r hr hp
            have hnew : r ∉ w1.arrays := by
              intro hm
              rw [Shared.mem_arrays] at hm
              have a1 := (r2 w1.ent (by simp)).1
              have a2 := (r2 w1.wrap (by simp)).1
              have a3 := (r2 w1.lrg (by simp)).1
              rcases hm with hm | hm | hm | hm
              · cases hf : w.obj.firstRun with
                | true => have := (r3 hf).1; omega
                | false => exact hp (hm.trans (r4 hf))
              · omega
              · omega
              · omega
            have hp2 : r ≠ w2.prob := by
              rw [hpr]; exact fun e => hnew (Shared.mem_arrays.2 (Or.inl e))
            rw [i4 r (by omega) hp2, (x2 r).2 hnew, r1 r hr]

/-- C77: a program that calls `reset()` and `run_once()` again and again and keeps what `get_entropy_array()` returns, without copying,
has at the end the entropies of every run, as if each list had been copied right after its run. -/
theorem C77_collect (h : SReach env v L w) {runs : List ((Nat → Nat) × Nat × (Nat → Draw))} {rs : List Nat} {cs : List (List α)}
    (hs : Shared.collect env v runs w = some (rs, cs, w')) : rs.map w'.listAt = cs ∧ rs.Nodup :=
  have := Shared.collect_keep env v L h hs
  ⟨this.1, this.2.1⟩

/-! ### Examples -/

/-- Evaluate a check on an object with its lists. -/
def checkShared (env : Env α) (v : Variant) (L : Nat) (ops : List (SOp α)) (p : Shared α → Bool) : Bool :=
  match Shared.new env L (fun _ => 0) with
  | .ok w =>
    match w.steps env v ops with
    | some w' => p w'
    | none => false
  | .error _ => false

theorem SReach.steps {ops : List (SOp α)} (h : SReach env v L w) (hs : w.steps env v ops = some w') : SReach env v L w' := by
  induction ops generalizing w with
  | nil => rw [← Option.some.inj hs]; exact h
  | cons op ops ih =>
    simp only [Shared.steps] at hs
    cases h1 : w.step env v op with
    | none => rw [h1] at hs; cases hs
    | some w1 => rw [h1] at hs; exact ih (.step op h h1) hs

theorem checkShared_reach {ops : List (SOp α)} {p : Shared α → Bool} (h : checkShared env v L ops p = true) : ∃ w, SReach env v L w ∧ p w = true := by
  unfold checkShared at h
  split at h
  · next w hn =>
    split at h
    · next w' hs => exact ⟨w', (SReach.new hn).steps hs, h⟩
    · cases h
  · cases h

/-- A run, a reset, a run: the first entropy list (object 1) still has its four entries, the second one is object 4; the occupation
probabilities are object 0 throughout, with the four entries of the first run. -/
example : ∃ w, SReach demoEnv .l0 2 w ∧ w.arrays = [0, 4, 5, 6] ∧ (w.listAt 0).length = 4 ∧ (w.listAt 1).length = 4 ∧ (w.listAt 4).length = 4 ∧
    w.obj.firstRun = false := by
  obtain ⟨w, h, hp⟩ := checkShared_reach (env := demoEnv) (v := .l0) (L := 2)
    (ops := [.call (.runOnce 5 fun _ => ⟨0, 0⟩), .call (.reset fun _ => 0), .call (.runOnce 5 fun _ => ⟨0, 0⟩)])
    (p := fun w => w.arrays == [0, 4, 5, 6] && ((w.listAt 0).length == 4 && ((w.listAt 1).length == 4 && ((w.listAt 4).length == 4 && !w.obj.firstRun))))
    (by decide +kernel)
  simp only [Bool.and_eq_true, beq_iff_eq, Bool.not_eq_true'] at hp
  exact ⟨w, h, hp⟩

/-- A caller who empties the list of occupation probabilities spoils all later runs: it stays empty, and `get_data_array` raises. -/
example : ∃ w, SReach demoEnv .l0 2 w ∧ w.load.occProbList = [] ∧ w.load.entropyList.length = 4 ∧ w.load.getDataArray = .error .valueError := by
  obtain ⟨w, h, hp⟩ := checkShared_reach (env := demoEnv) (v := .l0) (L := 2)
    (ops := [.call (.runOnce 5 fun _ => ⟨0, 0⟩), .write 0 [], .call (.reset fun _ => 0), .call (.runOnce 5 fun _ => ⟨0, 0⟩)])
    (p := fun w => w.load.occProbList.isEmpty && (w.load.entropyList.length == 4 && isErr w.load.getDataArray .valueError))
    (by decide +kernel)
  simp only [Bool.and_eq_true, beq_iff_eq, isErr_iff, List.isEmpty_iff] at hp
  exact ⟨w, h, hp⟩

/-- `C77_collect`: three runs, three lists of four entries. -/
example : ∃ (w w' : Shared Unit) (rs : List Nat) (cs : List (List Unit)), SReach demoEnv .l0 2 w ∧
    Shared.collect demoEnv .l0 (List.replicate 3 (fun _ => 0, 5, fun _ => ⟨0, 0⟩)) w = some (rs, cs, w') ∧ rs = [5, 8, 11] ∧ cs.map List.length = [4, 4, 4] := by
  have hc : (match Shared.new demoEnv 2 (fun _ => 0) with
    | .ok w => (match Shared.collect demoEnv .l0 (List.replicate 3 (fun _ => 0, 5, fun _ => ⟨0, 0⟩)) w with
      | some (rs, cs, _) => decide (rs = [5, 8, 11] ∧ cs.map List.length = [4, 4, 4])
      | none => false)
    | .error _ => false) = true := by decide +kernel
  split at hc
  · next w hn =>
    split at hc
    · next rs cs w' hs => exact ⟨w, w', rs, cs, .new hn, hs, of_decide_eq_true hc⟩
    · cases hc
  · cases hc

end SqPerc
