import Verif.Model.Words
import Mathlib.Data.Nat.Digits.Defs
/-
The generator of Python's `random` module, the Mersenne Twister MT19937, as in CPython's Modules/_randommodule.c: `random.seed(k)`
(percolation_sq_lattice.py:22) and the 32-bit words from which `Model/Words` makes the random numbers.  The arrays `mt[0..623]` of the C code are lists;
unsigned 32-bit arithmetic is that of `BitVec 32`.
-/
namespace SqPerc
namespace MT

/-- `uint32_t`. -/
abbrev W := BitVec 32

/-- `RandomObject`: the array `state` of 624 words and `index`. -/
structure State where
  mt : List W
  index : Nat
  deriving DecidableEq

/-- `mt[i]`. -/
def at' (mt : List W) (i : Nat) : W := mt.getD i 0

/-- `(y >> 1) ^ mag01[y & 1]` with `mag01 = {0, 0x9908b0df}`. -/
def mag (y : W) : W := (y >>> 1) ^^^ if y.getLsbD 0 then 0x9908b0df#32 else 0#32

/-- `(a & UPPER_MASK) | (b & LOWER_MASK)`: the top bit of the first and the lower 31 bits of the second word. -/
def join (a b : W) : W := (a &&& 0x80000000#32) ||| (b &&& 0x7fffffff#32)

/-- One turn of the loops of `genrand_uint32` that renew the array: `mt[kk] = mt[kk + 397] ^ (y >> 1) ^ mag01[y & 1]` with
`y = (mt[kk] & UPPER_MASK) | (mt[kk + 1] & LOWER_MASK)`.  (The C code has three loops instead of taking the indices modulo 624.) -/
def renewStep (mt : List W) (kk : Nat) : List W :=
  mt.set kk (at' mt ((kk + 397) % 624) ^^^ mag (join (at' mt kk) (at' mt ((kk + 1) % 624))))

/-- The loops. -/
def renew (mt : List W) : List W := (List.range 624).foldl renewStep mt

/-- The four lines after `/* Tempering */`. -/
def temper (y : W) : W :=
  let y := y ^^^ (y >>> 11)
  let y := y ^^^ ((y <<< 7) &&& 0x9d2c5680#32)
  let y := y ^^^ ((y <<< 15) &&& 0xefc60000#32)
  y ^^^ (y >>> 18)

/-- `genrand_uint32`. -/
def next (g : State) : W × State :=
  let g := if 624 ≤ g.index then ⟨renew g.mt, 0⟩ else g
  (temper (at' g.mt g.index), ⟨g.mt, g.index + 1⟩)

/-- The state after `i` calls. -/
def after (g : State) : Nat → State
  | 0 => g
  | i + 1 => (next (after g i)).2

/-- The coming words. -/
def words (g : State) (i : Nat) : Word := (next (after g i)).1.toFin

/-- `init_genrand(s)`: `mt[0] = s`, `mt[j] = 1812433253 * (mt[j-1] ^ (mt[j-1] >> 30)) + j`. -/
def initGenrand (s : W) : List W := (List.range 623).foldl
  (fun mt j => mt ++ [1812433253#32 * (at' mt j ^^^ (at' mt j >>> 30)) + BitVec.ofNat 32 (j + 1)]) [s]

/-- `init_by_array`: the variables `mt`, `i` and `j` of the loops. -/
structure Fill where
  mt : List W
  i : Nat
  j : Nat

/-- `i++; if (i >= N) { mt[0] = mt[N-1]; i = 1; }`. -/
def wrap (mt : List W) (i : Nat) : List W × Nat := if 624 ≤ i + 1 then (mt.set 0 (at' mt 623), 1) else (mt, i + 1)

/-- One turn of the first loop: `mt[i] = (mt[i] ^ ((mt[i-1] ^ (mt[i-1] >> 30)) * 1664525)) + init_key[j] + j`, then `i` and `j` go on. -/
def fill1 (key : List W) (f : Fill) : Fill :=
  let mt := f.mt.set f.i ((at' f.mt f.i ^^^ ((at' f.mt (f.i - 1) ^^^ (at' f.mt (f.i - 1) >>> 30)) * 1664525#32)) + at' key f.j + BitVec.ofNat 32 f.j)
  ⟨(wrap mt f.i).1, (wrap mt f.i).2, if key.length ≤ f.j + 1 then 0 else f.j + 1⟩

/-- One turn of the second loop: `mt[i] = (mt[i] ^ ((mt[i-1] ^ (mt[i-1] >> 30)) * 1566083941)) - i`. -/
def fill2 (f : Fill) : Fill :=
  let mt := f.mt.set f.i ((at' f.mt f.i ^^^ ((at' f.mt (f.i - 1) ^^^ (at' f.mt (f.i - 1) >>> 30)) * 1566083941#32)) - BitVec.ofNat 32 f.i)
  ⟨(wrap mt f.i).1, (wrap mt f.i).2, f.j⟩

/-- `n` turns. -/
def turns {β : Type} (f : β → β) : Nat → β → β
  | 0, x => x
  | n + 1, x => turns f n (f x)

/-- `init_by_array(init_key, key_length)`. -/
def initByArray (key : List W) : State :=
  let f := turns (fill1 key) (max 624 key.length) ⟨initGenrand 19650218#32, 1, 0⟩
  let f := turns fill2 623 f
  ⟨f.mt.set 0 0x80000000#32, 624⟩

/-- `random_seed(arg)` for an int: the absolute value as a little-endian array of 32-bit words, at least one. -/
def keyOf (n : Nat) : List W := if n = 0 then [0#32] else (Nat.digits (2 ^ 32) n).map (BitVec.ofNat 32)

/-- `random.seed(k)` for an int `k`. -/
def seed (k : Int) : State := initByArray (keyOf k.natAbs)

end MT

/-- The generator of the `random` module. -/
noncomputable def pyRng : Rng (Nat → Word) := wordRng fun k => MT.words (MT.seed k)

end SqPerc
