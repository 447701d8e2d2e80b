import Verif.Base.Base64
import Verif.Base.Outcome

/-!
# Model of `libs/cryptography/encryption`
-/

namespace Verif

/-- What `encryption.go` takes from the libraries: SHA-256 (`curve.Hash()`, `builder.go:31-33`,
`sdk.go:12-14`) and the AES block function. Nothing but lengths is assumed. `aes.NewCipher` fails
only for keys that do not have 16, 24 or 32 bytes, so it never fails here. -/
class Cipher where
  sha256 : Bytes → Bytes
  sha256_len : ∀ p, (sha256 p).length = 32
  block : Bytes → Bytes → Bytes
  block_len : ∀ k b, (block k b).length = 16

/-- `aes.BlockSize`. -/
def blockSize : Nat := 16

/-- `xorBytes` of `crypto/cipher`: up to the length of the shorter one. -/
def xorBytes (a b : Bytes) : Bytes := List.zipWith (· ^^^ ·) a b

section
variable [K : Cipher]

/-- `cipher.NewCFBEncrypter(block, iv).XORKeyStream`: every block is masked with the encryption of
the previous block of the cipher text, `prev`. -/
def cfbEncrypt (key prev msg : Bytes) : Bytes :=
  if _ : msg = [] then []
  else
    let c := xorBytes (msg.take blockSize) (K.block key prev)
    c ++ cfbEncrypt key c (msg.drop blockSize)
termination_by msg.length
decreasing_by
  have := List.length_pos_iff.mpr ‹_›
  simp [blockSize]; omega

/-- `cipher.NewCFBDecrypter(block, iv).XORKeyStream`. -/
def cfbDecrypt (key prev text : Bytes) : Bytes :=
  if _ : text = [] then []
  else
    xorBytes (text.take blockSize) (K.block key prev) ++
      cfbDecrypt key (text.take blockSize) (text.drop blockSize)
termination_by text.length
decreasing_by
  have := List.length_pos_iff.mpr ‹_›
  simp [blockSize]; omega

/-- `encryption.go:25-41` (`Encrypt`) with the key of the encryption; `iv` are the 16 bytes read from the
random source, which is taken not to fail. -/
def encryptWith (key iv msg : Bytes) : Bytes := b64Encode (iv ++ cfbEncrypt key iv msg)

/-- `encryption.go:44-69` (`Decrypt`) with the key of the encryption. The slice expressions panic when out of
bounds, which the length check excludes. -/
def decryptWith (key text : Bytes) : Outcome Bytes :=
  match b64Decode text with
  | none => .err "illegal base64 data"
  | some cipherText =>
    if cipherText.length < blockSize then
      .err "the encrypted text cannot be decoded using this password"
    else
      .ok (cfbDecrypt key (cipherText.take blockSize) (cipherText.drop blockSize))

/-- `sdk.go:11-15` (`NewEncryption`): the key made of a password. -/
def newEncryption (password : Bytes) : Bytes := K.sha256 password

/-- `builder.go:26-35` (`Now`): a nil password is refused; the result is the key. -/
def encryptionNow (password : Option Bytes) : Outcome Bytes :=
  match password with
  | none => .err "the password is mandatory in order to build an Encryption instance"
  | some p => .ok (K.sha256 p)

/-- `Encrypt` on an encryption made by `NewEncryption`. -/
def encrypt (password iv msg : Bytes) : Bytes := encryptWith (newEncryption password) iv msg

/-- `Decrypt` on an encryption made by `NewEncryption`. -/
def decrypt (password text : Bytes) : Outcome Bytes := decryptWith (newEncryption password) text

end

end Verif
