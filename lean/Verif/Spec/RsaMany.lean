import Verif.Model.RsaMany
import Mathlib.Data.Nat.Prime.Defs
import Mathlib.Data.Nat.ModEq

/-!
# Keys with any number of primes: C164
-/

namespace Verif

/-- Different odd primes, whose product is the modulus, and exponents that are inverse. -/
structure RsaMany.Proper (k : RsaMany) : Prop where
  prime : ∀ s ∈ k.primes, s.Prime ∧ 2 < s
  different : k.primes.Nodup
  modulus : k.pub.n = k.primes.prod
  e_low : 2 ≤ k.pub.e
  e_high : k.pub.e < 2 ^ 31
  inverse : ∀ s ∈ k.primes, k.pub.e * k.d ≡ 1 [MOD s - 1]

end Verif
