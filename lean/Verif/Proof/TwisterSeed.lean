import Verif.Proof.Twister
/-
The Mersenne Twister: what the filling of the array keeps of the seed.
-/
namespace SqPerc
namespace MT

theorem turns_add {β : Type} (f : β → β) (m n : Nat) (x : β) : turns f (m + n) x = turns f n (turns f m x) := by
  induction m generalizing x with
  | zero => rw [Nat.zero_add]; rfl
  | succ m ih => rw [show m + 1 + n = (m + n) + 1 by omega]; exact ih (f x)

theorem turns_succ {β : Type} (f : β → β) (n : Nat) (x : β) : turns f (n + 1) x = f (turns f n x) := turns_add f n 1 x

/-- The multiplier step of both loops. -/
def mix (c : W) (x : W) : W := (x ^^^ (x >>> 30)) * c

theorem fill1_eq (key : List W) (f : Fill) : fill1 key f =
    let mt := f.mt.set f.i ((at' f.mt f.i ^^^ mix 1664525#32 (at' f.mt (f.i - 1))) + at' key f.j + BitVec.ofNat 32 f.j)
    ⟨(wrap mt f.i).1, (wrap mt f.i).2, if key.length ≤ f.j + 1 then 0 else f.j + 1⟩ := rfl

theorem fill2_eq (f : Fill) : fill2 f =
    let mt := f.mt.set f.i ((at' f.mt f.i ^^^ mix 1566083941#32 (at' f.mt (f.i - 1))) - BitVec.ofNat 32 f.i)
    ⟨(wrap mt f.i).1, (wrap mt f.i).2, f.j⟩ := rfl

theorem wrap_length (mt : List W) (i : Nat) : (wrap mt i).1.length = mt.length := by
  unfold wrap
  split
  · exact List.length_set
  · rfl

theorem wrap_at {mt : List W} (h : mt.length = 624) (i : Nat) {p : Nat} (hp : 1 ≤ p) : at' (wrap mt i).1 p = at' mt p := by
  unfold wrap
  split
  · rw [at_set (by omega), if_neg (by omega)]
  · rfl

/-- Place of writing after a turn at `i`. -/
def on (i : Nat) : Nat := if 624 ≤ i + 1 then 1 else i + 1

theorem wrap_snd (mt : List W) (i : Nat) : (wrap mt i).2 = on i := by
  unfold wrap on
  split <;> rfl

/-- A stage of the filling. -/
structure Stage (f : Fill) : Prop where
  len : f.mt.length = 624
  low : 1 ≤ f.i
  high : f.i ≤ 623

/-- The array has been gone through once at least: at the first place the entry before is the last one. -/
def Closed (f : Fill) : Prop := f.i = 1 → at' f.mt 0 = at' f.mt 623

theorem on_range {i : Nat} (_ : i ≤ 623) : 1 ≤ on i ∧ on i ≤ 623 := by
  unfold on; split <;> omega

theorem write_stage {f : Fill} (h : Stage f) (v : W) (j : Nat) :
    Stage ⟨(wrap (f.mt.set f.i v) f.i).1, (wrap (f.mt.set f.i v) f.i).2, j⟩ := by
  constructor
  · simp only [wrap_length, List.length_set, h.len]
  · simp only [wrap_snd]; exact (on_range h.high).1
  · simp only [wrap_snd]; exact (on_range h.high).2

theorem write_closed {f : Fill} (h : Stage f) (v : W) (j : Nat) :
    Closed ⟨(wrap (f.mt.set f.i v) f.i).1, (wrap (f.mt.set f.i v) f.i).2, j⟩ := by
  intro h1
  simp only [wrap_snd] at h1 ⊢
  have h2 := h.high
  have h3 := h.low
  have hl : (f.mt.set f.i v).length = 624 := by rw [List.length_set, h.len]
  unfold on at h1
  unfold wrap
  split at h1
  · next hc =>
    rw [if_pos hc]
    have q : ∀ w p, at' ((f.mt.set f.i v).set 0 w) p = if p = 0 then w else at' (f.mt.set f.i v) p := fun w p => at_set (by rw [hl]; norm_num)
    simp only
    rw [q, q, if_pos rfl, if_neg (by norm_num)]
  · omega

theorem write_at {f : Fill} (h : Stage f) (v : W) {p : Nat} (hp : 1 ≤ p) :
    at' (wrap (f.mt.set f.i v) f.i).1 p = if p = f.i then v else at' f.mt p := by
  have h2 := h.high
  rw [wrap_at (by rw [List.length_set, h.len]) _ hp, at_set (by rw [h.len]; omega)]

theorem fill1_stage {f : Fill} (key : List W) (h : Stage f) : Stage (fill1 key f) := by rw [fill1_eq]; exact write_stage h _ _
theorem fill2_stage {f : Fill} (h : Stage f) : Stage (fill2 f) := by rw [fill2_eq]; exact write_stage h _ _
theorem fill1_closed {f : Fill} (key : List W) (h : Stage f) : Closed (fill1 key f) := by rw [fill1_eq]; exact write_closed h _ _
theorem fill2_closed {f : Fill} (h : Stage f) : Closed (fill2 f) := by rw [fill2_eq]; exact write_closed h _ _

theorem turns1_stage {f : Fill} (key : List W) (h : Stage f) (n : Nat) : Stage (turns (fill1 key) n f) := by
  induction n with
  | zero => exact h
  | succ n ih => rw [turns_succ]; exact fill1_stage key ih

theorem turns2_stage {f : Fill} (h : Stage f) (n : Nat) : Stage (turns fill2 n f) := by
  induction n with
  | zero => exact h
  | succ n ih => rw [turns_succ]; exact fill2_stage ih

/-- The same place and the same entries from the second on. -/
def Agree (f g : Fill) : Prop := f.i = g.i ∧ ∀ p, 1 ≤ p → p ≤ 623 → at' f.mt p = at' g.mt p

/-- The place of writing is moved without regard to the entries. -/
theorem on_inj {i k : Nat} (hi : 1 ≤ i) (hi' : i ≤ 623) (hk : 1 ≤ k) (hk' : k ≤ 623) (h : on i = on k) : i = k := by
  unfold on at h; split at h <;> split at h <;> omega

/-- A turn of the second loop can be undone. -/
theorem fill2_back {f g : Fill} (hf : Stage f) (hg : Stage g) (cf : Closed f) (cg : Closed g) (h : Agree (fill2 f) (fill2 g)) : Agree f g := by
  rw [fill2_eq, fill2_eq] at h
  obtain ⟨h1, h2⟩ := h
  simp only [wrap_snd] at h1
  have hi : f.i = g.i := on_inj hf.low hf.high hg.low hg.high h1
  have hother : ∀ p, 1 ≤ p → p ≤ 623 → p ≠ f.i → at' f.mt p = at' g.mt p := by
    intro p hp hp' hne
    have := h2 p hp hp'
    simp only at this
    rwa [write_at hf _ hp, write_at hg _ hp, if_neg hne, if_neg (hi ▸ hne)] at this
  have hlow := hf.low
  have hhigh := hf.high
  have hprev : at' f.mt (f.i - 1) = at' g.mt (f.i - 1) := by
    by_cases e : f.i = 1
    · rw [e, Nat.sub_self, cf e, cg (by omega)]
      exact hother 623 (by norm_num) le_rfl (by omega)
    · exact hother _ (by omega) (by omega) (by omega)
  refine ⟨hi, fun p hp hp' => ?_⟩
  by_cases e : p = f.i
  · have := h2 p hp hp'
    simp only at this
    rw [write_at hf _ hp, write_at hg _ hp, if_pos e, if_pos (e.trans hi), ← hi, hprev, BitVec.sub_left_inj] at this
    rw [BitVec.xor_left_inj] at this
    rw [e]; exact this
  · exact hother p hp hp' e

theorem turns2_back {f g : Fill} (hf : Stage f) (hg : Stage g) (cf : Closed f) (cg : Closed g) (n : Nat) (h : Agree (turns fill2 n f) (turns fill2 n g)) : Agree f g := by
  induction n generalizing f g with
  | zero => exact h
  | succ n ih => exact fill2_back hf hg cf cg (ih (fill2_stage hf) (fill2_stage hg) (fill2_closed hf) (fill2_closed hg) h)

theorem initGenrand_length (s : W) : (initGenrand s).length = 624 := by
  have : ∀ n, ((List.range n).foldl
      (fun mt j => mt ++ [1812433253#32 * (at' mt j ^^^ (at' mt j >>> 30)) + BitVec.ofNat 32 (j + 1)]) [s]).length = n + 1 := by
    intro n
    induction n with
    | zero => rfl
    | succ n ih => rw [List.range_succ, List.foldl_append, List.foldl_cons, List.foldl_nil, List.length_append, ih, List.length_singleton]
  exact this 623

attribute [local irreducible] initGenrand

/-- What the first loop adds in its `p`-th turn: a word of the key and its number. -/
def added (key : List W) (p : Nat) : W := at' key ((p - 1) % key.length) + BitVec.ofNat 32 ((p - 1) % key.length)

theorem mod_next {t l : Nat} (hl : 0 < l) : (if l ≤ t % l + 1 then 0 else t % l + 1) = (t + 1) % l := by
  have h := Nat.mod_lt t hl
  rw [Nat.add_mod]
  by_cases hc : l ≤ t % l + 1
  · have : t % l + 1 = l := by omega
    rw [if_pos hc]
    by_cases h1 : l = 1
    · subst h1; rw [Nat.mod_one]
    · rw [Nat.mod_eq_of_lt (show 1 < l by omega), this, Nat.mod_self]
  · rw [if_neg hc, Nat.mod_eq_of_lt (show 1 < l by omega), Nat.mod_eq_of_lt (show t % l + 1 < l by omega)]

/-- The first loop, before the end of the array is reached. -/
theorem turns1_first {key : List W} (hk : 0 < key.length) {init : List W} (hi : init.length = 624) : ∀ t, t ≤ 622 →
    let f := turns (fill1 key) t ⟨init, 1, 0⟩
    f.i = t + 1 ∧ f.j = t % key.length ∧ (∀ p, t < p → at' f.mt p = at' init p) ∧
      ∀ p, 1 ≤ p → p ≤ t → at' f.mt p = (at' init p ^^^ mix 1664525#32 (at' f.mt (p - 1))) + added key p := by
  intro t
  induction t with
  | zero => intro _; exact ⟨rfl, by simp [turns], fun p _ => rfl, fun p h1 h2 => by omega⟩
  | succ t ih =>
    intro ht
    have hs := turns1_stage key (f := ⟨init, 1, 0⟩) ⟨hi, le_rfl, by norm_num⟩ t
    obtain ⟨h1, h2, h3, h4⟩ := ih (by omega)
    rw [turns_succ]
    generalize turns (fill1 key) t ⟨init, 1, 0⟩ = f at hs h1 h2 h3 h4
    have hw : ∀ m : List W, wrap m f.i = (m, f.i + 1) := by
      intro m; unfold wrap; rw [if_neg (by omega)]
    rw [fill1_eq]
    simp only [hw]
    have hset : ∀ (v : W) p, at' (f.mt.set f.i v) p = if p = f.i then v else at' f.mt p := fun v p => at_set (by rw [hs.len]; omega)
    refine ⟨by omega, by rw [h2]; exact mod_next hk, fun p hp => ?_, fun p hp hp' => ?_⟩
    · rw [hset, if_neg (by omega), h3 p (by omega)]
    · rw [hset, hset, if_neg (show p - 1 ≠ f.i by omega)]
      by_cases e : p = f.i
      · rw [if_pos e, e, h3 f.i (by omega), h2]
        have e2 : f.i - 1 = t := by omega
        unfold added
        rw [e2, BitVec.add_assoc]
      · rw [if_neg e, h4 p hp (by omega)]

/-- The first loop, all 624 turns: the entries from the third on. -/
theorem turns1_all {key : List W} (hk : 0 < key.length) {init : List W} (hi : init.length = 624) :
    ∀ p, 3 ≤ p → p ≤ 623 → at' (turns (fill1 key) 624 ⟨init, 1, 0⟩).mt p =
      (at' init p ^^^ mix 1664525#32 (at' (turns (fill1 key) 624 ⟨init, 1, 0⟩).mt (p - 1))) + added key p := by
  have hs := turns1_stage key (f := ⟨init, 1, 0⟩) ⟨hi, le_rfl, by norm_num⟩ 622
  obtain ⟨h1, h2, h3, h4⟩ := turns1_first hk hi 622 le_rfl
  have e : turns (fill1 key) 624 ⟨init, 1, 0⟩ = fill1 key (fill1 key (turns (fill1 key) 622 ⟨init, 1, 0⟩)) :=
    (turns_succ (fill1 key) 623 _).trans (congrArg (fill1 key) (turns_succ (fill1 key) 622 _))
  rw [e]
  generalize turns (fill1 key) 622 ⟨init, 1, 0⟩ = f at hs h1 h2 h3 h4
  have hs' := fill1_stage key hs
  have hi' : (fill1 key f).i = 1 := by rw [fill1_eq]; simp only [wrap_snd, h1]; rfl
  have hlast : ∀ p, 2 ≤ p → at' (fill1 key (fill1 key f)).mt p = at' (fill1 key f).mt p := by
    intro p hp
    rw [fill1_eq key (fill1 key f)]
    simp only
    rw [write_at hs' _ (by omega), if_neg (by omega)]
  have hmid : ∀ p, 1 ≤ p → p ≤ 622 → at' (fill1 key f).mt p = at' f.mt p := by
    intro p hp hp'
    rw [fill1_eq key f]
    simp only
    rw [write_at hs _ hp, if_neg (by omega)]
  intro p hp hp'
  rw [hlast p (by omega), hlast (p - 1) (by omega), hmid (p - 1) (by omega) (by omega)]
  by_cases hc : p = 623
  · subst hc
    rw [fill1_eq key f]
    simp only
    rw [write_at hs _ (by norm_num), if_pos (by omega), h3 f.i (by omega), h2, h1]
    unfold added
    rw [BitVec.add_assoc]
  · rw [hmid p (by omega) (by omega), h4 p (by omega) (by omega)]

theorem first_stage : Stage ⟨initGenrand 19650218#32, 1, 0⟩ := ⟨initGenrand_length _, le_rfl, by norm_num⟩

/-- The state after seeding, by stages. -/
theorem initByArray_eq {key : List W} (hk : key.length ≤ 624) :
    initByArray key = ⟨(turns fill2 623 (turns (fill1 key) 624 ⟨initGenrand 19650218#32, 1, 0⟩)).mt.set 0 0x80000000#32, 624⟩ := by
  unfold initByArray
  rw [max_eq_left hk]

theorem initByArray_valid (key : List W) : (initByArray key).Valid := by
  have h := (turns2_stage (turns1_stage key first_stage (max 624 key.length)) 623).len
  unfold initByArray State.Valid
  simp only
  generalize turns fill2 623 (turns (fill1 key) (max 624 key.length) ⟨initGenrand 19650218#32, 1, 0⟩) = f at h
  rw [List.length_set]
  exact And.intro h le_rfl

theorem initByArray_index (key : List W) : (initByArray key).index = 624 := rfl

/-- Equal states after seeding come from keys that add the same from the third turn on. -/
theorem initByArray_added {key key' : List W} (h0 : 0 < key.length) (h0' : 0 < key'.length) (hk : key.length ≤ 624) (hk' : key'.length ≤ 624)
    (h : ∀ p, 1 ≤ p → p ≤ 623 → at' (initByArray key).mt p = at' (initByArray key').mt p) : ∀ p, 3 ≤ p → p ≤ 623 → added key p = added key' p := by
  have key_i : ∀ (k : List W) n, (turns (fill1 k) n ⟨initGenrand 19650218#32, 1, 0⟩).i = turns on n 1 := by
    intro k n
    induction n with
    | zero => rfl
    | succ n ih => rw [turns_succ, turns_succ, fill1_eq]; simp only [wrap_snd, ih]
  have hi2 : ∀ (f : Fill) n, (turns fill2 n f).i = turns on n f.i := by
    intro f n
    induction n with
    | zero => rfl
    | succ n ih => rw [turns_succ, turns_succ, fill2_eq]; simp only [wrap_snd, ih]
  have s1 := turns1_stage key first_stage 624
  have s1' := turns1_stage key' first_stage 624
  have c1 : Closed (turns (fill1 key) 624 ⟨initGenrand 19650218#32, 1, 0⟩) := by rw [turns_succ]; exact fill1_closed key (turns1_stage key first_stage 623)
  have c1' : Closed (turns (fill1 key') 624 ⟨initGenrand 19650218#32, 1, 0⟩) := by rw [turns_succ]; exact fill1_closed key' (turns1_stage key' first_stage 623)
  have hag : Agree (turns fill2 623 (turns (fill1 key) 624 ⟨initGenrand 19650218#32, 1, 0⟩)) (turns fill2 623 (turns (fill1 key') 624 ⟨initGenrand 19650218#32, 1, 0⟩)) := by
    refine ⟨by rw [hi2, hi2, key_i, key_i], fun p hp hp' => ?_⟩
    have := h p hp hp'
    rw [initByArray_eq hk, initByArray_eq hk'] at this
    simp only at this
    rwa [at_set (by rw [(turns2_stage s1 623).len]; norm_num), at_set (by rw [(turns2_stage s1' 623).len]; norm_num), if_neg (by omega), if_neg (by omega)] at this
  obtain ⟨-, hb⟩ := turns2_back s1 s1' c1 c1' 623 hag
  intro p hp hp'
  have e1 := turns1_all h0 (initGenrand_length 19650218#32) p hp hp'
  have e2 := turns1_all h0' (initGenrand_length 19650218#32) p hp hp'
  rw [hb p (by omega) hp', e2, hb (p - 1) (by omega) (by omega), BitVec.add_right_inj] at e1
  exact e1.symm

/-- Keys that add the same in all turns give equal states. -/
theorem initByArray_congr {key key' : List W} (h0 : 0 < key.length) (h0' : 0 < key'.length) (hk : key.length ≤ 624) (hk' : key'.length ≤ 624)
    (h : ∀ p, 1 ≤ p → p ≤ 624 → added key p = added key' p) : initByArray key = initByArray key' := by
  rw [initByArray_eq hk, initByArray_eq hk']
  have hmain : ∀ n, n ≤ 624 → 
      (turns (fill1 key) n ⟨initGenrand 19650218#32, 1, 0⟩).mt = (turns (fill1 key') n ⟨initGenrand 19650218#32, 1, 0⟩).mt ∧
      (turns (fill1 key) n ⟨initGenrand 19650218#32, 1, 0⟩).i = (turns (fill1 key') n ⟨initGenrand 19650218#32, 1, 0⟩).i ∧
      (turns (fill1 key) n ⟨initGenrand 19650218#32, 1, 0⟩).j = n % key.length ∧
      (turns (fill1 key') n ⟨initGenrand 19650218#32, 1, 0⟩).j = n % key'.length := by
    intro n
    induction n with
    | zero => intro _; exact ⟨rfl, rfl, by simp [turns], by simp [turns]⟩
    | succ n ih =>
      intro hn
      obtain ⟨h1, h2, h3, h4⟩ := ih (by omega)
      rw [turns_succ, turns_succ]
      generalize turns (fill1 key) n ⟨initGenrand 19650218#32, 1, 0⟩ = f at h1 h2 h3
      generalize turns (fill1 key') n ⟨initGenrand 19650218#32, 1, 0⟩ = g at h1 h2 h4
      have ha := h (n + 1) (by omega) hn
      unfold added at ha
      rw [Nat.add_sub_cancel, ← h3, ← h4] at ha
      rw [fill1_eq, fill1_eq]
      simp only [h1, h2, BitVec.add_assoc, ha]
      exact ⟨trivial, trivial, by rw [h3]; exact mod_next h0, by rw [h4]; exact mod_next h0'⟩
  obtain ⟨h1, h2, -, -⟩ := hmain 624 le_rfl
  have hsec : ∀ n, ∀ f g : Fill, f.mt = g.mt → f.i = g.i → (turns fill2 n f).mt = (turns fill2 n g).mt := by
    intro n
    induction n with
    | zero => intro f g h _; exact h
    | succ n ih =>
      intro f g h h'
      refine ih (fill2 f) (fill2 g) ?_ ?_ <;> rw [fill2_eq, fill2_eq] <;> simp only [h, h']
  rw [hsec 623 _ _ h1 h2]

end MT
end SqPerc
