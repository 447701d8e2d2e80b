import Verif.Model.Kyber.Group
import Verif.Model.Kyber.Scalar
import Verif.Model.Sig
import Verif.Model.Rsa

/-!
# Model of `libs/cryptography/pk/signature` on the limbs of the vendored code

The same functions as in `Model/Sig.lean`, but running on the concrete representations: points are four
field elements of ten limbs, scalars are bytes. Nothing is assumed about the curve; SHA-256 is the only
parameter. `Ed25519/Simulate.lean` proves that both models produce the same texts and answers.
-/

namespace Verif.Kyber

section
variable [Sha256]

/-- `helper.go:10-16` (`createHash`). -/
def kHash (msg : Bytes) : Bytes := scSetBytes (Sha256.sum msg)

/-- `helper.go:18-20` (`genK`). -/
def kGenK (x msg : Bytes) : Bytes := kHash (msg ++ scString x)

/-- `point.go:31-35` (`String`). -/
def kPtStr (p : GeExt) : Bytes := hexEncode p.toBytes

/-- `helper.go:22-36` (`fromStringToScalar`); `marshalling.go:55-66` reads 32 bytes and leaves the rest. -/
def kToScalar (s : Bytes) : Outcome Bytes :=
  match hexDecode s with
  | none => .err "hex: invalid input"
  | some b =>
    if 32 ≤ b.length then
      match scUnmarshal (b.take 32) with
      | none => .err "wrong size buffer"
      | some v => .ok v
    else .err "unexpected EOF"

/-- `helper.go:38-51` (`fromStringToPoint`). -/
def kToPoint (s : Bytes) : Outcome GeExt :=
  match hexDecode s with
  | none => .err "hex: invalid input"
  | some b =>
    match GeExt.fromBytes b with
    | none => .err "invalid Ed25519 curve point"
    | some p => .ok p

/-- `privatekey.go:23-27` (`PublicKey`). -/
def kPublicKey (x : Bytes) : GeExt := ptMul x baseext

/-! ## New private keys -/

/-- `util/random/rand.go:17-32` (`Bits`) for the 253 bits of `primeOrder`: `b` is the output of the random
stream; `highbits` is 5. -/
def randomBits : Bytes → Bytes
  | [] => []
  | c :: b => (c &&& 31) :: b

/-- `util/random/rand.go:35-44` (`Int`) with the modulus `primeOrder`: `draws` are the successive outputs
of the random stream (32 bytes each); `none` stands for a loop that needs more of them. -/
def randomInt : List Bytes → Option Nat
  | [] => none
  | b :: draws =>
    let i := beNat (randomBits b)
    if 0 < i ∧ i < primeOrder then some i else randomInt draws

/-- `privatekey_factory.go:12-15` (`Create`), `edwards25519/scalar.go:136-139` (`Pick`). -/
def kCreateKey (draws : List Bytes) : Option Bytes :=
  (randomInt draws).map fun i => littleEndian32 (i % primeOrder)

/-! ## Plain signatures -/

/-- `signature.go:13-16`. -/
structure KSignature where
  r : GeExt
  s : Bytes

/-- `signature.go:28-40` (`PublicKey`). -/
def KSignature.publicKey (sig : KSignature) (msg : Bytes) : GeExt :=
  let e := kHash (msg ++ kPtStr sig.r)
  let y := ptSub sig.r (ptMul sig.s baseext)
  ptMul (scDiv scOne e) y

/-- `signature.go:43-65` (`Verify`); `nonce` is the text of the random number drawn at line 46. -/
def KSignature.verify (sig : KSignature) (nonce : Bytes) : Bool :=
  let p := sig.publicKey nonce
  let e := kHash (nonce ++ kPtStr sig.r)
  let sGv := ptSub sig.r (ptMul e p)
  let sG := ptMul sig.s baseext
  ptEqual sG sGv

/-- `signature.go:18-25` (`createSignature`). -/
def kCreateSignature (r : GeExt) (s nonce : Bytes) : Outcome KSignature :=
  let out : KSignature := ⟨r, s⟩
  if out.verify nonce then .ok out else .err "the signature could not verify"

/-- `privatekey.go:86-105` (`Sign`). -/
def kSign (x msg nonce : Bytes) : Outcome KSignature :=
  let k := kGenK x msg
  let r := ptMul k baseext
  let e := kHash (msg ++ kPtStr r)
  let s := scSub k (scMul e x)
  kCreateSignature r s nonce

/-- `signature.go:68-71` (`String`). -/
def KSignature.str (sig : KSignature) : Bytes := b64Encode (kPtStr sig.r ++ 35 :: scString sig.s)

/-- `adapter.go:19-43` (`ToSignature`). -/
def kToSignature (text nonce : Bytes) : Outcome KSignature :=
  match b64Decode text with
  | none => .err "illegal base64 data"
  | some decoded =>
    match splitOn 35 decoded with
    | [a, b] => do
      let p ← kToPoint a
      let s ← kToScalar b
      kCreateSignature p s nonce
    | _ => .err "the signature string was expected to have 2 sections"

/-! ## Ring signatures -/

/-- `ringsignature.go:10-14`. -/
structure KRingSignature where
  ring : List GeExt
  s : List Bytes
  e : Bytes

/-- `privatekey.go:32-41`. -/
def kSignerIndex (pub : GeExt) : List GeExt → Option Nat
  | [] => none
  | p :: ps => if ptEqual p pub then some 0 else (kSignerIndex pub ps).map (· + 1)

/-- `privatekey.go:71-74`, `ringsignature.go:42-45`. -/
def kRingStep (msg s e : Bytes) (p : GeExt) : Bytes :=
  kHash (msg ++ kPtStr (ptAdd (ptMul s baseext) (ptMul e p)))

/-- `privatekey.go:67-76`; see `ringLoop`. -/
def kRingLoop (x msg : Bytes) (ring : List GeExt) (signer : Nat) :
    Nat → Nat → (Nat → Option Bytes) → (Nat → Option Bytes) →
      Outcome ((Nat → Option Bytes) × (Nat → Option Bytes))
  | 0, _, _, _ => .crash .stackOverflow
  | fuel + 1, i, es, ss =>
    if i = signer then .ok (es, ss)
    else
      let si := kGenK x (msg ++ natDec i)
      match es i with
      | none => .crash .nilDeref
      | some ei =>
        match ring[i]? with
        | none => .crash .indexOutOfRange
        | some pi =>
          let next := (i + 1) % ring.length
          kRingLoop x msg ring signer fuel next
            (fun j => if j = next then some (kRingStep msg si ei pi) else es j)
            (fun j => if j = i then some si else ss j)

/-- `privatekey.go:30-83` (`RingSign`). -/
def kRingSign (x msg : Bytes) (ring : List GeExt) : Outcome KRingSignature :=
  match kSignerIndex (kPublicKey x) ring with
  | none => .err "the signer PublicKey is not in the ring"
  | some signer =>
    let k := kGenK x msg
    let r := ring.length
    let begin := (signer + 1) % r
    let e0 := kHash (msg ++ kPtStr (ptMul k baseext))
    match kRingLoop x msg ring signer r begin (fun j => if j = begin then some e0 else none)
        (fun _ => none) with
    | .err m => .err m
    | .crash c => .crash c
    | .ok (es, ss) =>
      match es signer with
      | none => .crash .nilDeref
      | some esig =>
        let sig := scSub k (scMul esig x)
        let ss' := fun j => if j = signer then some sig else ss j
        match es 0 with
        | none => .crash .nilDeref
        | some e =>
          match mapO (fun j => Outcome.deref (ss' j)) (List.range r) with
          | .ok s => .ok ⟨ring, s, e⟩
          | .err m => .err m
          | .crash c => .crash c

/-- `ringsignature.go:41-46`. -/
def kRingVerifyLoop (msg : Bytes) : List GeExt → List Bytes → Bytes → Outcome Bytes
  | [], _, e => .ok e
  | _ :: _, [], _ => .crash .indexOutOfRange
  | p :: ps, s :: ss, e => kRingVerifyLoop msg ps ss (kRingStep msg s e p)

/-- `ringsignature.go:32-49` (`Verify`). -/
def KRingSignature.verify (sig : KRingSignature) (msg : Bytes) : Outcome Bool :=
  match kRingVerifyLoop msg sig.ring sig.s sig.e with
  | .ok e => .ok (scEqual sig.e e)
  | .err m => .err m
  | .crash c => .crash c

/-- `ringsignature.go:52-65` (`String`). -/
def KRingSignature.str (sig : KRingSignature) : Bytes :=
  b64Encode (elements (sig.ring.map kPtStr) ++
    35 :: (elements (sig.s.map scString) ++ 35 :: scString sig.e))

/-- `ringsignature_adapter.go:26-75` (`ToSignature`). -/
def kToRingSignature (text : Bytes) : Outcome KRingSignature :=
  match b64Decode text with
  | none => .err "illegal base64 data"
  | some decoded =>
    match splitOn 35 decoded with
    | [a, b, c] => do
      let ring ← mapO kToPoint ((splitOn 124 a).filter (· ≠ []))
      let s ← mapO kToScalar ((splitOn 124 b).filter (· ≠ []))
      let e ← kToScalar c
      return ⟨ring, s, e⟩
    | _ => .err "the ring signature string was expected to have 3 sections"

variable [Sha512]

/-- `ringsignature_adapter.go:89-100`. -/
def kCompareHashes : List GeExt → List Hash → Outcome Bool
  | [], _ => .ok true
  | _ :: _, [] => .crash .indexOutOfRange
  | p :: ps, h :: hs =>
    match fromString (kPtStr p) with
    | .ok k => if k.compare h then kCompareHashes ps hs else .err "the ring PublicKey hash do not match"
    | .err _ => .err "there was an error while hashing a ring PublicKey"
    | .crash c => .crash c

/-- `ringsignature_adapter.go:78-103` (`ToVerification`). -/
def kToVerification (sig : KRingSignature) (msg : Bytes) (hashes : List Hash) : Outcome Bool :=
  match sig.verify msg with
  | .err m => .err m
  | .crash c => .crash c
  | .ok false => .err "the signature could not be validated against the message"
  | .ok true =>
    if hashes.length ≠ sig.ring.length then .err "the length of the given hashes do not match"
    else kCompareHashes sig.ring hashes

end

end Verif.Kyber
