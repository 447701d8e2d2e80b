import Verif.Model.Hash

/-!
# Specification vocabulary: explicit collisions
-/

namespace Verif

variable [Sha512]

/-- Two different byte strings, both really hashed (not 64 bytes long), with the same SHA-512
value: an actual collision of the hash function. -/
def ShaCollision (x y : Bytes) : Prop :=
  x ≠ y ∧ x.length ≠ 64 ∧ y.length ≠ 64 ∧ Sha512.sum x = Sha512.sum y

/-- A 64-byte string that is the SHA-512 value of the (not 64-byte) string `y`: exploits that
64-byte inputs are not hashed. -/
def ShaPassThrough (x y : Bytes) : Prop :=
  x.length = 64 ∧ y.length ≠ 64 ∧ (Sha512.sum y).bytes = x

end Verif
