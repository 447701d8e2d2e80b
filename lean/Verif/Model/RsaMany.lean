import Verif.Model.Rsa

/-!
# Model of `libs/cryptography/pk/encryption`: imported private keys with more than two primes

`x509.ParsePKCS1PrivateKey` also reads keys with more primes, which `Model/Rsa` refuses. Imported keys are
precomputed.
-/

namespace Verif

/-- `rsa.PrivateKey`, wrapped by `privatekey.go:11-14`, with all primes. -/
structure RsaMany where
  pub : RsaPub
  d : Nat
  p : Nat
  q : Nat
  more : List Nat
  deriving DecidableEq, Repr

/-- `Primes`. -/
def RsaMany.primes (k : RsaMany) : List Nat := k.p :: k.q :: k.more

/-- The first two primes. -/
def RsaMany.two (k : RsaMany) : RsaKey := ⟨k.pub, k.d, k.p, k.q, true⟩

/-- The loop of `decrypt` over `CRTValues`: `r` is the product of the primes before (`R`), `Coeff` is nil if it
has a common factor with the prime, and is dereferenced. -/
def crtLoop (d c : Nat) : Nat → Nat → List Nat → Outcome Nat
  | _, m, [] => .ok m
  | r, m, s :: rest => do
    let coeff ← Outcome.deref (modInverse r s)
    let m₂ : Int := (((c ^ (d % (s - 1)) % s : Nat) : Int) - (m : Int)) * (coeff : Int) % (s : Int)
    crtLoop d c (r * s) (m + m₂.toNat * r) rest

/-- The private operation of `decrypt` without blinding. -/
def rsaManyRaw (k : RsaMany) (c : Nat) : Outcome Nat := do
  let m ← rsaRaw k.two c
  crtLoop k.d c (k.p * k.q) m k.more

/-- `decrypt` of `crypto/rsa` with blinding, as `rsaDecryptNat`. -/
def rsaManyDecryptNat (k : RsaMany) (r c : Nat) : Outcome Nat := do
  Outcome.guardNot (k.pub.n < c) "crypto/rsa: decryption error"
  Outcome.guardNot (k.pub.n = 0) "crypto/rsa: decryption error"
  let ir ← Outcome.deref (modInverse r k.pub.n)
  let m ← rsaManyRaw k (c * (r ^ k.pub.e % k.pub.n) % k.pub.n)
  .ok (m * ir % k.pub.n)

/-- `privatekey.go:36-44` (`Decrypt`), `rsa.DecryptOAEP`. -/
def rsaManyDecrypt [Sha256] (k : RsaMany) (r : Nat) (c : Bytes) : Outcome Bytes := do
  checkPub k.pub
  Outcome.guardNot (k.pub.size < c.length || k.pub.size < 66) "crypto/rsa: decryption error"
  let m ← rsaManyDecryptNat k r (beNat c)
  oaepUnpad (leftPad k.pub.size (beBytes m))

/-- `Precompute` and `MarshalPKCS1PrivateKey`: prime, exponent and coefficient of each further prime; `none` if a
coefficient is nil. -/
def crtFields (d : Nat) : Nat → List Nat → Option Bytes
  | _, [] => some []
  | r, s :: rest =>
    match modInverse r s with
    | none => none
    | some coeff =>
      match crtFields d (r * s) rest with
      | none => none
      | some b => some (tlv tagSequence (derField s ++ (derField (d % (s - 1)) ++ derField coeff)) ++ b)

/-- `adapter.go:40-44` (`ToBytes`), as `rsaKeyToBytes`: the version tells whether there are more primes. -/
def rsaManyToBytes (k : RsaMany) : Outcome Bytes :=
  if k.primes.any (· == 1) then .crash .divideByZero
  else
    match modInverse k.q k.p, crtFields k.d (k.p * k.q) k.more with
    | some qinv, some more =>
      .ok (tlv tagSequence
        (derField (if k.more = [] then 0 else 1) ++ (derField k.pub.n ++ (derField k.pub.e ++ (derField k.d ++
          (derField k.p ++ (derField k.q ++ (derField (k.d % (k.p - 1)) ++
            (derField (k.d % (k.q - 1)) ++ (derField qinv ++
              if k.more = [] then [] else tlv tagSequence more))))))))))
    | _, _ => .ok []

/-- `PrivateKey.Validate`: primality is not checked. -/
def rsaManyValidate (k : RsaMany) : Outcome Unit := do
  checkPub k.pub
  Outcome.guardNot (k.primes.any (· ≤ 1)) "crypto/rsa: invalid prime value"
  Outcome.guardNot (k.primes.prod != k.pub.n) "crypto/rsa: invalid modulus"
  Outcome.guardNot (k.primes.any fun s => k.pub.e * k.d % (s - 1) != 1) "crypto/rsa: invalid exponents"

/-- `parseSequenceOf` and the fields of `pkcs1AdditionalPrime`: the primes, the other two numbers are not used.
Every element has a byte at least, so `n` is the length. -/
def derPrimes : Nat → Bytes → Option (List Int)
  | _, [] => some []
  | 0, _ :: _ => none
  | n + 1, x :: b => do
    let (c, rest) ← derCut tagSequence (x :: b)
    let (s, c₁) ← derInt c
    let (_, c₂) ← derInt c₁
    let (_, _) ← derInt c₂
    let more ← derPrimes n rest
    some (s :: more)

/-- The optional sequence of more primes, behind everything else. -/
def derMore (b : Bytes) : Option (List Int) :=
  match b with
  | [] => some []
  | t :: _ =>
    if t = tagSequence then
      match derCut tagSequence b with
      | some (c, _) => derPrimes c.length c
      | none => none
    else if derHeader b then some [] else none

/-- `asn1.Unmarshal` into `pkcs1PrivateKey`. -/
def parseRsaMany (b : Bytes) : Option (Int × Int × Int × Int × Int × Int × List Int) := do
  let (seq, rest) ← derCut tagSequence b
  if rest ≠ [] then none
  else do
    let (version, b₁) ← derSmallInt seq
    let (n, b₂) ← derInt b₁
    let (e, b₃) ← derSmallInt b₂
    let (d, b₄) ← derInt b₃
    let (p, b₅) ← derInt b₄
    let (q, b₆) ← derInt b₅
    let b₇ ← derOptInt b₆
    let b₈ ← derOptInt b₇
    let b₉ ← derOptInt b₈
    let more ← derMore b₉
    some (version, n, e, d, p, q, more)

/-- `adapter.go:20-28` (`FromBytes`), `x509.ParsePKCS1PrivateKey`. -/
def rsaManyFromBytes (b : Bytes) : Outcome RsaMany :=
  match parseRsaMany b with
  | none => .err "asn1: error"
  | some (version, n, e, d, p, q, more) =>
    if 1 < version then .err "x509: unsupported private key version"
    else if n ≤ 0 ∨ d ≤ 0 ∨ p ≤ 0 ∨ q ≤ 0 then
      .err "x509: private key contains zero or negative value"
    else if more.any (· ≤ 0) then .err "x509: private key contains zero or negative prime"
    else if e < 2 then .err "crypto/rsa: public exponent too small"
    else do
      let k : RsaMany := ⟨⟨n.toNat, e.toNat⟩, d.toNat, p.toNat, q.toNat, more.map Int.toNat⟩
      rsaManyValidate k
      .ok k

end Verif
