import Mathlib.Data.Nat.ModEq

/-!
# Strong probable primes: C163
-/

namespace Verif

/-- `n` looks like a prime to the base `b`: with `n - 1` an odd number times a power of two, `b` to the odd number is
one, or minus one is met before the last squaring. -/
def StrongProbable (n b : Nat) : Prop :=
  ∃ k q, n - 1 = 2 ^ k * q ∧ q % 2 = 1 ∧
    (b ^ q ≡ 1 [MOD n] ∨ ∃ j < k, b ^ (2 ^ j * q) ≡ n - 1 [MOD n])

end Verif
