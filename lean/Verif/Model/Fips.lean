import Verif.Model.Sha2
import Verif.Model.Aes
import Verif.Model.Hash
import Verif.Model.Rsa
import Verif.Model.Encryption

/-!
# The parameters of the model as the code has them

The hash functions and the cipher are parameters everywhere else. These are the values they have in the code.
With the vendored curve (`Verif.Ed25519.Instance`), which is a parameter as well, nothing is left open but
random numbers, the clock and the format of floating point numbers.
-/

namespace Verif

namespace Sha2

theorem wordBytes_length (H : Sha2) (hb : H.bits = 8 * H.bytes) (x : Nat) :
    (H.wordBytes x).length = H.bytes := by
  refine leftPad_length (beBytes_length_le.mpr ?_)
  have : (256 : Nat) ^ H.bytes = 2 ^ H.bits := by
    rw [hb, show (256 : Nat) = 2 ^ 8 by norm_num, ← pow_mul]
  rw [this]
  exact Nat.mod_lt _ (by positivity)

theorem digest_length (H : Sha2) (hb : H.bits = 8 * H.bytes) (r : Regs) :
    (H.digest r).length = 8 * H.bytes := by
  simp only [digest, List.length_append, wordBytes_length H hb]
  omega

theorem sum_length (H : Sha2) (hb : H.bits = 8 * H.bytes) (m : Bytes) :
    (H.sum m).length = 8 * H.bytes := digest_length H hb _

end Sha2

/-- `sha512.New`, `Write` and `Sum`, as called in `libs/hash/adapter.go:17-34`. -/
@[instance_reducible] def Sha512.fips : Sha512 where
  sum m := ⟨Sha2.sha512.sum m, Sha2.sum_length _ rfl m⟩

/-- `sha256.New`, `Write` and `Sum`, as used by `crypto/rsa` for the paddings of
`libs/cryptography/pk/encryption/privatekey.go`. -/
@[instance_reducible] def Sha256.fips : Sha256 where
  sum m := Sha2.sha256.sum m
  len m := Sha2.sum_length _ rfl m

/-- The key of an encryption is the SHA-256 value of the password (`libs/cryptography/encryption/sdk.go:11-15`,
`curve.Hash` of the vendored suite), the cipher is AES with this key
(`libs/cryptography/encryption/encryption.go:25-69`). -/
@[instance_reducible] def Cipher.fips : Cipher where
  sha256 p := Sha2.sha256.sum p
  sha256_len p := Sha2.sum_length _ rfl p
  block := Aes.block
  block_len := Aes.block_length

end Verif
