import Verif.Model.Rng
import Verif.Spec.Chance
import Mathlib.Data.Nat.Size
/-
How Python's `random` module makes the numbers that the code uses from the 32-bit words that its generator, the Mersenne Twister, puts out.
`random.shuffle` (percolation_sq_lattice.py:211) and `random.randint` (percolation_sq_lattice_L1L2.py:88, 98, 199, 204) take them from
`Random._randbelow_with_getrandbits` of CPython's Lib/random.py.  The words themselves are inputs here; `Model/Twister` has the
code of the generator.
-/
namespace SqPerc

/-- An output of the generator. -/
abbrev Word := Fin (2 ^ 32)

/-- `getrandbits(k)` for `k ≤ 32`: the upper `k` bits of one word. -/
def getBits (k : Nat) (w : Word) : Nat := w.1 / 2 ^ (32 - k)

open Classical in
/-- CPython, Lib/random.py, `_randbelow_with_getrandbits(n)` for `0 < n < 2³²`: `k = n.bit_length()`; `r = getrandbits(k)`;
`while r >= n: r = getrandbits(k)`; `return r`.  `w` are the coming words; the result and the words not yet used.  (If no word is ever good the
loop does not end; the value is then a placeholder.) -/
noncomputable def randBelow (n : Nat) (w : Nat → Word) : Nat × (Nat → Word) :=
  if h : ∃ t, getBits n.size (w t) < n then (getBits n.size (w (Nat.find h)), fun i => w (Nat.find h + 1 + i)) else (0, w)

/-- The generator: the state is the sequence of the coming words.  `seed k` is what `random.seed(k)` makes of `k`. -/
noncomputable def wordRng (seed : Int → Nat → Word) : Rng (Nat → Word) := ⟨seed, randBelow⟩

/-- A computation that takes its numbers from a generator. -/
def Ask.run {σ β : Type} (G : Rng σ) : Ask β → σ → β × σ
  | .ret b, g => (b, g)
  | .ask n k, g => (k (G.below n g).1).run G (G.below n g).2

end SqPerc
