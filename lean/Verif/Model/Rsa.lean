import Verif.Base.Der
import Verif.Base.Base64
import Verif.Model.Encryption
import Verif.Model.Hash
import Mathlib.Data.Nat.Size
import Mathlib.Data.Int.GCD

/-!
# Model of `libs/cryptography/pk/encryption` and `libs/cryptography/pk/encryption/public`

The repository wraps `crypto/rsa` (OAEP with SHA-256 and the empty label) and the PKCS #1 encodings
of `crypto/x509`.  Both are written out here, following the Go library (as of Go 1.13, the version
named in `go.mod`); SHA-256 is a parameter.

Simplifications: numbers in keys are non-negative and present (all keys that are generated or
parsed are); keys have two primes (as generated; encodings with additional primes are refused here and
read in `Model/RsaMany`); the random source does not fail; error texts are abbreviated.
-/

namespace Verif

/-- SHA-256: an arbitrary function to 32 bytes. -/
class Sha256 where
  sum : Bytes → Bytes
  len : ∀ b, (sum b).length = 32

/-- `rsa.PublicKey`, wrapped by `public/key.go:9-11`. -/
structure RsaPub where
  n : Nat
  e : Nat
  deriving DecidableEq, Repr

/-- `rsa.PrivateKey`, wrapped by `privatekey.go:11-14`. `pre` says whether `Precompute` was called;
the precomputed values are functions of the others. -/
structure RsaKey where
  pub : RsaPub
  d : Nat
  p : Nat
  q : Nat
  pre : Bool
  deriving DecidableEq, Repr

/-! ## Builders -/

/-- `public/builder.go:31-38` (`Now`). -/
def rsaPubNow (key : Option RsaPub) : Outcome RsaPub :=
  Outcome.require "the rsa PublicKey is mandatory in order to build a PublicKey instance" key

/-- `builder.go:34-46` (`Now`): the public key (`privatekey.go:31-33`, `Public`) is the one inside
of the private key. -/
def rsaKeyNow (pk : Option RsaKey) : Outcome (RsaKey × RsaPub) := do
  let pk ← Outcome.require
    "the rsa PrivateKey is mandatory in order to build an encryption PrivateKey instance" pk
  let pub ← rsaPubNow (some pk.pub)
  .ok (pk, pub)

/-! ## `crypto/rsa` -/

/-- `PublicKey.Size`: the number of bytes of the modulus. -/
def RsaPub.size (k : RsaPub) : Nat := (Nat.size k.n + 7) / 8

/-- `checkPub`. -/
def checkPub (k : RsaPub) : Outcome Unit := do
  Outcome.guardNot (k.e < 2) "crypto/rsa: public exponent too small"
  Outcome.guardNot (2 ^ 31 - 1 < k.e) "crypto/rsa: public exponent too large"

/-- The four byte counter of `mgf1XOR`. -/
def counter4 (i : Nat) : Bytes := leftPad 4 (beBytes (i % 2 ^ 32))

/-- `(*big.Int).ModInverse`: nil if there is none. -/
def modInverse (a n : Nat) : Option Nat :=
  if Nat.gcd a n = 1 then some (Nat.gcdA a n % n).toNat else none

section
variable [H : Sha256]

/-- The mask that `mgf1XOR` makes of `seed`, for `len` bytes. -/
def mgf1 (seed : Bytes) (len : Nat) : Bytes :=
  ((List.range ((len + 31) / 32)).flatMap fun i => H.sum (seed ++ counter4 i)).take len

/-- `mgf1XOR(out, hash, seed)`. -/
def mgf1Xor (out seed : Bytes) : Bytes := xorBytes out (mgf1 seed out.length)

/-- The data block of `EncryptOAEP`: hash of the empty label, zeros, a one, the message. -/
def oaepBlock (k : Nat) (msg : Bytes) : Bytes :=
  H.sum [] ++ (List.replicate (k - msg.length - 66) 0 ++ 1 :: msg)

/-- The padded message of `EncryptOAEP`. -/
def oaepPad (k : Nat) (seed msg : Bytes) : Bytes :=
  let db := mgf1Xor (oaepBlock k msg) seed
  0 :: (mgf1Xor seed db ++ db)

/-- `public/key.go:26-30` (`Encrypt`), `rsa.EncryptOAEP`; `seed` are the 32 bytes read from the
random source. -/
def rsaEncrypt (k : RsaPub) (seed msg : Bytes) : Outcome Bytes := do
  checkPub k
  if k.size < msg.length + 66 then
    .err "crypto/rsa: message too long for RSA public key size"
  else
    .ok (leftPad k.size (beBytes (beNat (oaepPad k.size seed msg) ^ k.e % k.n)))

/-- The private operation of `decrypt` without blinding: with precomputed values by the Chinese
remainder theorem. `Qinv` is nil if the primes have a common factor, and is dereferenced. -/
def rsaRaw (k : RsaKey) (c : Nat) : Outcome Nat :=
  if !k.pre then .ok (c ^ k.d % k.pub.n)
  else do
    let m₁ : Int := (c ^ (((k.d : Int) % ((k.p : Int) - 1)).toNat) % k.p : Nat)
    let m₂ : Int := (c ^ (((k.d : Int) % ((k.q : Int) - 1)).toNat) % k.q : Nat)
    let qinv ← Outcome.deref (modInverse k.q k.p)
    let m := if m₁ - m₂ < 0 then m₁ - m₂ + k.p else m₁ - m₂
    .ok ((m * qinv % k.p * k.q + m₂).toNat)

/-- `decrypt` of `crypto/rsa` with blinding. `r` is the random number that ended the loop, which is
left only with an invertible one. -/
def rsaDecryptNat (k : RsaKey) (r c : Nat) : Outcome Nat := do
  Outcome.guardNot (k.pub.n < c) "crypto/rsa: decryption error"
  Outcome.guardNot (k.pub.n = 0) "crypto/rsa: decryption error"
  let ir ← Outcome.deref (modInverse r k.pub.n)
  let m ← rsaRaw k (c * (r ^ k.pub.e % k.pub.n) % k.pub.n)
  .ok (m * ir % k.pub.n)

/-- The loop of `DecryptOAEP` that looks for the end of the padding: the variables are
`lookingForIndex`, `index` and `invalid`, `i` is the position. -/
def sepLoop : Nat → Bool → Nat → Bool → Bytes → Bool × Nat × Bool
  | _, looking, index, invalid, [] => (looking, index, invalid)
  | i, looking, index, invalid, x :: rest =>
    let index := if looking && x == 1 then i else index
    let looking := if x == 1 then false else looking
    let invalid := if looking && x != 0 then true else invalid
    sepLoop (i + 1) looking index invalid rest

/-- The checks of `DecryptOAEP` on the padded message. -/
def oaepUnpad (em : Bytes) : Outcome Bytes :=
  let db := em.drop 33
  let seed := mgf1Xor ((em.drop 1).take 32) db
  let db := mgf1Xor db seed
  let rest := db.drop 32
  let r := sepLoop 0 true 0 false rest
  if em.headD 0 == 0 && db.take 32 == H.sum [] && !r.2.2 && !r.1 then .ok (rest.drop (r.2.1 + 1))
  else .err "crypto/rsa: decryption error"

/-- `privatekey.go:36-44` (`Decrypt`), `rsa.DecryptOAEP`. -/
def rsaDecrypt (k : RsaKey) (r : Nat) (c : Bytes) : Outcome Bytes := do
  checkPub k.pub
  Outcome.guardNot (k.pub.size < c.length || k.pub.size < 66) "crypto/rsa: decryption error"
  let m ← rsaDecryptNat k r (beNat c)
  oaepUnpad (leftPad k.pub.size (beBytes m))

end

/-! ## `crypto/x509`: PKCS #1 encodings -/

/-- An encoded non-negative integer. -/
def derField (n : Nat) : Bytes := tlv tagInteger (derNat n)

/-- `public/adapter.go:44-48` (`ToBytes`), `x509.MarshalPKCS1PublicKey`. -/
def rsaPubToBytes (k : RsaPub) : Bytes := tlv tagSequence (derField k.n ++ derField k.e)

/-- A field of type `int`: at most eight octets. -/
def derSmallInt (b : Bytes) : Option (Int × Bytes) :=
  match derCut tagInteger b with
  | none => none
  | some (c, rest) =>
    if 8 < c.length then none
    else
      match derIntVal c with
      | none => none
      | some v => some (v, rest)

/-- `asn1.Unmarshal` into `pkcs1PublicKey`: bytes behind the two fields are ignored inside of the
sequence; behind the sequence they are refused by the caller. -/
def parseRsaPub (b : Bytes) : Option (Int × Int) := do
  let (seq, rest) ← derCut tagSequence b
  if rest ≠ [] then none
  else do
    let (n, b₁) ← derInt seq
    let (e, _) ← derSmallInt b₁
    some (n, e)

/-- `public/adapter.go:24-32` (`FromBytes`), `x509.ParsePKCS1PublicKey`. -/
def rsaPubFromBytes (b : Bytes) : Outcome RsaPub :=
  match parseRsaPub b with
  | none => .err "asn1: error"
  | some (n, e) =>
    if n ≤ 0 ∨ e ≤ 0 then .err "x509: public key contains zero or negative value"
    else if 2 ^ 31 - 1 < e then .err "x509: public key contains large public exponent"
    else rsaPubNow (some ⟨n.toNat, e.toNat⟩)

/-- `public/adapter.go:50-54` (`ToEncoded`). -/
def rsaPubToEncoded (k : RsaPub) : Bytes := b64Encode (rsaPubToBytes k)

/-- `public/adapter.go:34-42` (`FromEncoded`). -/
def rsaPubFromEncoded (s : Bytes) : Outcome RsaPub :=
  match b64Decode s with
  | none => .err "illegal base64 data"
  | some b => rsaPubFromBytes b

/-- `public/adapter.go:56-60` (`ToHash`). -/
def rsaPubHash [Sha512] (k : RsaPub) : Hash := fromBytes (rsaPubToBytes k)

/-- `adapter.go:40-44` (`ToBytes`), `x509.MarshalPKCS1PrivateKey`, on a copy of the key. `Precompute`
divides by the primes minus one; if there is no `Qinv` the encoding fails and the error is dropped,
which leaves no bytes. -/
def rsaKeyToBytes (k : RsaKey) : Outcome Bytes :=
  if k.p = 1 ∨ k.q = 1 then .crash .divideByZero
  else
    match modInverse k.q k.p with
    | none => .ok []
    | some qinv =>
      .ok (tlv tagSequence
        (derField 0 ++ (derField k.pub.n ++ (derField k.pub.e ++ (derField k.d ++ (derField k.p ++
          (derField k.q ++ (derField ((k.d : Int) % ((k.p : Int) - 1)).toNat ++
            (derField ((k.d : Int) % ((k.q : Int) - 1)).toNat ++ derField qinv)))))))))

/-- `PrivateKey.Validate`: primality is not checked. -/
def rsaValidate (k : RsaKey) : Outcome Unit := do
  checkPub k.pub
  Outcome.guardNot (k.p ≤ 1 || k.q ≤ 1) "crypto/rsa: invalid prime value"
  Outcome.guardNot (k.p * k.q != k.pub.n) "crypto/rsa: invalid modulus"
  Outcome.guardNot (k.pub.e * k.d % (k.p - 1) != 1 || k.pub.e * k.d % (k.q - 1) != 1)
    "crypto/rsa: invalid exponents"

/-- `parseBase128Int` of `asn1.go`, with `k` more bytes to go: the number and the bytes behind. -/
def base128Loop : Nat → Nat → Bytes → Option (Nat × Bytes)
  | _, _, [] => none
  | 0, _, _ :: _ => none
  | k + 1, acc, x :: rest =>
    if x < 128 then
      if 2 ^ 31 - 1 < acc * 128 + x.toNat then none else some (acc * 128 + x.toNat, rest)
    else base128Loop k (acc * 128 + (x.toNat - 128)) rest

/-- `parseTagAndLength`, the tag, which may have several bytes: the bytes behind. -/
def derTag (b : Bytes) : Option Bytes :=
  match b with
  | [] => none
  | t :: rest =>
    if t % 32 = 31 then
      match base128Loop 5 0 rest with
      | none => none
      | some (n, rest') => if n < 31 then none else some rest'
    else some rest

/-- `parseTagAndLength`, the length: whether there is no error. -/
def derLenOk (b : Bytes) : Bool :=
  match b with
  | [] => false
  | l :: rest =>
    if l < 128 then true
    else if l = 128 then false
    else
      match lenLoop (l.toNat - 128) 0 rest with
      | none => false
      | some (n, _) => decide (128 ≤ n)

/-- `parseTagAndLength`: whether there is no error. -/
def derHeader (b : Bytes) : Bool :=
  match derTag b with
  | none => false
  | some rest => derLenOk rest

/-- An optional integer field: skipped if there is nothing or something else, of which only the header is
read. -/
def derOptInt (b : Bytes) : Option Bytes :=
  match b with
  | [] => some []
  | t :: _ =>
    if t = tagInteger then (derInt b).map Prod.snd
    else if derHeader b then some b else none

/-- The optional sequence of more primes, behind everything else: keys that have more than two are not
modelled. -/
def derNoPrimes (b : Bytes) : Option Unit :=
  match b with
  | [] => some ()
  | t :: _ =>
    if t = tagSequence then
      match derCut tagSequence b with
      | some ([], _) => some ()
      | _ => none
    else if derHeader b then some () else none

/-- `asn1.Unmarshal` into `pkcs1PrivateKey`: version, modulus, exponents and primes; the three
values behind are optional and not used. -/
def parseRsaKey (b : Bytes) : Option (Int × Int × Int × Int × Int × Int) := do
  let (seq, rest) ← derCut tagSequence b
  if rest ≠ [] then none
  else do
    let (version, b₁) ← derSmallInt seq
    let (n, b₂) ← derInt b₁
    let (e, b₃) ← derSmallInt b₂
    let (d, b₄) ← derInt b₃
    let (p, b₅) ← derInt b₄
    let (q, b₆) ← derInt b₅
    let b₇ ← derOptInt b₆
    let b₈ ← derOptInt b₇
    let b₉ ← derOptInt b₈
    derNoPrimes b₉
    some (version, n, e, d, p, q)

/-- `adapter.go:20-28` (`FromBytes`), `x509.ParsePKCS1PrivateKey`: the key is validated and
precomputed. -/
def rsaKeyFromBytes (b : Bytes) : Outcome RsaKey :=
  match parseRsaKey b with
  | none => .err "asn1: error"
  | some (version, n, e, d, p, q) =>
    if 1 < version then .err "x509: unsupported private key version"
    else if n ≤ 0 ∨ d ≤ 0 ∨ p ≤ 0 ∨ q ≤ 0 then
      .err "x509: private key contains zero or negative value"
    else if e < 2 then .err "crypto/rsa: public exponent too small"
    else do
      let k : RsaKey := ⟨⟨n.toNat, e.toNat⟩, d.toNat, p.toNat, q.toNat, true⟩
      rsaValidate k
      let (k, _) ← rsaKeyNow (some k)
      .ok k

/-- `adapter.go:46-50` (`ToEncoded`). -/
def rsaKeyToEncoded (k : RsaKey) : Outcome Bytes := do
  let b ← rsaKeyToBytes k
  .ok (b64Encode b)

/-- `adapter.go:30-38` (`FromEncoded`). -/
def rsaKeyFromEncoded (s : Bytes) : Outcome RsaKey :=
  match b64Decode s with
  | none => .err "illegal base64 data"
  | some b => rsaKeyFromBytes b

end Verif
