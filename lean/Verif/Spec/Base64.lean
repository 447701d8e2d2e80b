import Verif.Base.Base64

/-!
# Vocabulary for base64 texts
-/

namespace Verif

/-- The text differs from the encoding of the bytes at most in the bits of the last character before the
padding that no byte needs: four bits before two `=`, two before one. -/
def UpToSpareBits (x t : Bytes) : Prop :=
  t = b64Encode x ∨ ∃ body pad : Bytes, ∃ v k : UInt8, pad = List.replicate ((3 - x.length % 3) % 3) 61 ∧
    b64Encode x = body ++ b64Char v :: pad ∧ t = body ++ b64Char (v + k) :: pad ∧
    k.toNat < 4 ^ pad.length ∧ v.toNat % 4 ^ pad.length = 0 ∧ v.toNat < 64

/-- The text without carriage returns and line feeds. -/
def withoutBreaks (s : Bytes) : Bytes := s.filter fun c => c ≠ 10 ∧ c ≠ 13

end Verif
