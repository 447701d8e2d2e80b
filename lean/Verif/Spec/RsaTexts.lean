import Verif.Model.Rsa

/-!
# Specification vocabulary: OAEP, as RFC 8017 describes it
-/

namespace Verif

variable [H : Sha256]

/-- Byte `j` of the mask that MGF1 with SHA-256 makes of `s`: the hashes of `s` and a counter of four bytes, the
highest first, one after the other. -/
def maskByte (s : Bytes) (j : Nat) : UInt8 :=
  let i := j / 32
  (H.sum (s ++ [UInt8.ofNat (i / 2 ^ 24), UInt8.ofNat (i / 2 ^ 16), UInt8.ofNat (i / 2 ^ 8), UInt8.ofNat i])).getD
    (j % 32) 0

/-- The block `db` is masked with the seed, which gives `b`, and the seed with `b`, which gives `a`. -/
structure OaepMasks (seed db a b : Bytes) : Prop where
  block_length : b.length = db.length
  seed_length : a.length = seed.length
  block : ∀ j < db.length, b[j]? = (db[j]?).map (· ^^^ maskByte seed j)
  seed : ∀ j < seed.length, a[j]? = (seed[j]?).map (· ^^^ maskByte b j)

end Verif
