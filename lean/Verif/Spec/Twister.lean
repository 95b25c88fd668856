import Mathlib.Data.Nat.Digits.Defs
/-
The Mersenne Twister MT19937 as in the paper of Matsumoto and Nishimura (1998) and their program of 2002: a linear recurrence for 32-bit words, an output
transformation, and a recurrence that spreads a key over the first 624 words.  No arrays and no loops.
-/
namespace SqPerc
namespace TwisterSpec

/-- The recurrence: word `k + 624` comes from word `k + 397`, the top bit of word `k` and the lower 31 bits of word `k + 1`. -/
def Recurs (x : Nat → BitVec 32) : Prop := ∀ k,
  let y : BitVec 32 := (x k &&& 0x80000000#32) ||| (x (k + 1) &&& 0x7fffffff#32)
  x (k + 624) = x (k + 397) ^^^ (y >>> 1) ^^^ (if y.toNat % 2 = 1 then 0x9908b0df#32 else 0#32)

/-- The output for the word `x`. -/
def Puts (x z : BitVec 32) : Prop :=
  ∃ a b c : BitVec 32, a = x ^^^ (x >>> 11) ∧ b = a ^^^ ((a <<< 7) &&& 0x9d2c5680#32) ∧ c = b ^^^ ((b <<< 15) &&& 0xefc60000#32) ∧ z = c ^^^ (c >>> 18)

/-- The words `a` from which the spreading starts. -/
def Start (a : Nat → BitVec 32) : Prop :=
  a 0 = 19650218#32 ∧ ∀ k, a (k + 1) = 1812433253#32 * (a k ^^^ (a k >>> 30)) + BitVec.ofNat 32 (k + 1)

/-- The spreading of a key of `l` words: `m` words made with the key, where `m` is the larger of 624 and `l`, then 623 without it.  Word `t` replaces the
one 623 places earlier; before the first 623 there are the words `a`. -/
def Spreads (key : List (BitVec 32)) (a u : Nat → BitVec 32) : Prop :=
  let old := fun t => if t ≤ 623 then a t else u (t - 623)
  u 0 = a 0 ∧
  (∀ t < max 624 key.length, u (t + 1) = (old (t + 1) ^^^ ((u t ^^^ (u t >>> 30)) * 1664525#32)) + key.getD (t % key.length) 0 +
    BitVec.ofNat 32 (t % key.length)) ∧
  ∀ t, max 624 key.length ≤ t → t < max 624 key.length + 623 →
    u (t + 1) = (old (t + 1) ^^^ ((u t ^^^ (u t >>> 30)) * 1566083941#32)) - BitVec.ofNat 32 (t % 623 + 1)

/-- The first 624 words made of a key: word 0 has only its top bit set, and word `p` is the last of the words `u` whose number is `p` modulo 623. -/
def First (key : List (BitVec 32)) (x : Nat → BitVec 32) : Prop := ∃ a u, Start a ∧ Spreads key a u ∧ x 0 = 0x80000000#32 ∧
  ∀ s, max 624 key.length < s → s ≤ max 624 key.length + 623 → x ((s - 1) % 623 + 1) = u s

/-- The key of a number: its 32-bit digits, the lowest first, and at least one. -/
def KeyOf (n : Nat) (key : List (BitVec 32)) : Prop :=
  key ≠ [] ∧ Nat.ofDigits (2 ^ 32) (key.map BitVec.toNat) = n ∧ (1 < key.length → key.getLast? ≠ some 0)

end TwisterSpec
end SqPerc
