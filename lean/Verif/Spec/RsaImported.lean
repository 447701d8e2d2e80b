import Verif.Model.Rsa
import Mathlib.Algebra.Squarefree.Basic
import Mathlib.Data.Nat.Prime.Defs

/-!
# Private keys that undo their public key: C162
-/

namespace Verif

/-- For a factor `m` of the modulus the exponents `e` and `f` cancel: `m` is a product of different primes, and
`e * f` is 1 modulo each of them minus one. -/
def Cancels (e f m : Nat) : Prop := Squarefree m ∧ ∀ s : Nat, s.Prime → s ∣ m → s - 1 ∣ e * f - 1

/-- The exponents of the key cancel for both factors. -/
def RsaKey.Undoes (k : RsaKey) : Prop :=
  Cancels k.pub.e (k.d % (k.p - 1)) k.p ∧ Cancels k.pub.e (k.d % (k.q - 1)) k.q

end Verif
