import Mathlib.Data.Int.ModEq
import Verif.Base.Bytes

/-!
# The curve edwards25519, independently of the code that computes on it
-/

namespace Verif

/-- `(x, y)` solves the equation `-x² + y² = 1 - (121665/121666) x² y²` modulo `2^255 - 19`. -/
def OnCurve25519 (x y : Int) : Prop :=
  121666 * (y ^ 2 - x ^ 2) ≡ 121666 - 121665 * x ^ 2 * y ^ 2 [ZMOD 2 ^ 255 - 19]

/-- The number that 32 bytes stand for, the first byte being the least significant. -/
def littleValue (b : Bytes) : Nat := b.foldr (fun c n => c.toNat + 256 * n) 0

/-- The low 255 bits of 32 bytes. -/
def lowBits (b : Bytes) : Nat := littleValue b % 2 ^ 255

/-- The top bit of 32 bytes. -/
def topBit (b : Bytes) : Nat := littleValue b / 2 ^ 255

end Verif
