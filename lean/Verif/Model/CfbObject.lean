import Verif.Model.Encryption

/-!
# The streams of `libs/cryptography/encryption`

`cfb` of `crypto/cipher` (Go 1.13) with its buffers. `Encrypt` reads the message and writes behind the initial
value, `Decrypt` writes over what it reads.
-/

namespace Verif

/-- `cfb`: `next`, `out` and `outUsed`. -/
structure CfbStream where
  next : Bytes
  out : Bytes
  used : Nat
  deriving DecidableEq

/-- `copy(l[k:], s)`. -/
def copyAt (l : Bytes) (k : Nat) (s : Bytes) : Bytes := l.take k ++ (s.take (l.length - k) ++ l.drop (k + s.length))

section
variable [K : Cipher]

/-- `newCFB`. -/
def newCfb (iv : Bytes) : CfbStream :=
  ⟨copyAt (List.replicate blockSize 0) 0 iv, List.replicate blockSize 0, blockSize⟩

/-- The start of an iteration of `XORKeyStream`: a new mask if the last one is used up. -/
def CfbStream.refill (key : Bytes) (x : CfbStream) : CfbStream :=
  if x.used = x.out.length then ⟨x.next, K.block key x.next, 0⟩ else x

/-- `XORKeyStream(dst, src)` of an encrypter, where `dst` and `src` do not overlap; `n` is at least the number of
bytes of `src`. The result is what is written to `dst`. -/
def cfbXorTo (key : Bytes) : Nat → CfbStream → Bytes → Bytes
  | _, _, [] => []
  | 0, _, _ :: _ => []
  | n + 1, x, b :: src =>
    let x := x.refill key
    let dst := xorBytes (b :: src) (x.out.drop x.used)
    dst ++ cfbXorTo key n ⟨copyAt x.next x.used dst, x.out, x.used + dst.length⟩ ((b :: src).drop dst.length)

/-- `XORKeyStream(buf, buf)` of a decrypter, from position `i` on; `n` is at least the number of bytes behind it. -/
def cfbXorOver (key : Bytes) : Nat → CfbStream → Bytes → Nat → Bytes
  | 0, _, buf, _ => buf
  | n + 1, x, buf, i =>
    if buf.drop i = [] then buf
    else
      let x := x.refill key
      let next := copyAt x.next x.used (buf.drop i)
      let dst := xorBytes (buf.drop i) (x.out.drop x.used)
      cfbXorOver key n ⟨next, x.out, x.used + dst.length⟩ (copyAt buf i dst) (i + dst.length)

/-- `encryption.go:25-41` (`Encrypt`), as `encryptWith`. -/
def encryptStream (key iv msg : Bytes) : Bytes := b64Encode (iv ++ cfbXorTo key msg.length (newCfb iv) msg)

/-- `encryption.go:44-69` (`Decrypt`), as `decryptWith`. -/
def decryptStream (key text : Bytes) : Outcome Bytes :=
  match b64Decode text with
  | none => .err "illegal base64 data"
  | some cipherText =>
    if cipherText.length < blockSize then
      .err "the encrypted text cannot be decoded using this password"
    else
      let buf := cipherText.drop blockSize
      .ok (cfbXorOver key buf.length (newCfb (cipherText.take blockSize)) buf 0)

end

end Verif
