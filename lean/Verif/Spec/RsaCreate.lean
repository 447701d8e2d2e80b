import Mathlib.Data.Nat.Prime.Defs
import Mathlib.Data.Nat.Size

/-!
# Primes that are drawn for a key: C163
-/

namespace Verif

/-- What `rand.Prime` returns when it is asked for `b` bits: a prime of `b` bits whose two highest bits are set. -/
def TopPrime (b p : Nat) : Prop := p.Prime ∧ 3 * 2 ^ b ≤ 4 * p ∧ p < 2 ^ b

/-- The two primes of a round: half of the bits, and the bits that are left. -/
def Drawn (bits : Nat) (x : Nat × Nat) : Prop :=
  TopPrime (bits / 2) x.1 ∧ TopPrime (bits - Nat.size x.1) x.2

/-- Two different primes with an exponent that can be inverted. -/
def UsablePair (x : Nat × Nat) : Prop := x.1 ≠ x.2 ∧ ¬ 65537 ∣ (x.1 - 1) * (x.2 - 1)

end Verif
