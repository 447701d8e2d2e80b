import Verif.Model.Rsa
import Mathlib.Data.Nat.Prime.Basic
import Mathlib.Data.Nat.ModEq

/-!
# Specification vocabulary: RSA keys
-/

namespace Verif

/-- A proper RSA key, as `rsa.GenerateKey` makes them: two different odd primes, their product, and
exponents that are inverse to each other modulo both primes minus one. -/
structure RsaKey.Proper (k : RsaKey) : Prop where
  p_prime : k.p.Prime
  q_prime : k.q.Prime
  p_odd : 2 < k.p
  q_odd : 2 < k.q
  ne : k.p ≠ k.q
  modulus : k.pub.n = k.p * k.q
  e_low : 2 ≤ k.pub.e
  e_high : k.pub.e < 2 ^ 31
  inv_p : k.pub.e * k.d ≡ 1 [MOD k.p - 1]
  inv_q : k.pub.e * k.d ≡ 1 [MOD k.q - 1]

end Verif
