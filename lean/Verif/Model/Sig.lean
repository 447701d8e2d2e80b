import Verif.Model.Hash
import Verif.Base.Base64
import Verif.Base.Split
import Mathlib.Algebra.Field.Basic

/-!
# Model of `libs/cryptography/pk/signature`

The elliptic curve library (`go.dedis.ch/kyber/v3`, group edwards25519) is a parameter: `Curve`
lists its operations and the few laws used in proofs.
-/

namespace Verif

/-- A kyber edwards25519 scalar: 32 raw bytes, little endian, not necessarily reduced. -/
structure Scalar where
  raw : Bytes
  len : raw.length = 32

namespace Scalar

@[ext] theorem ext {a b : Scalar} (h : a.raw = b.raw) : a = b := by
  cases a; cases b; cases h; rfl

instance : DecidableEq Scalar := fun a b =>
  if h : a.raw = b.raw then isTrue (ext h) else isFalse fun e => h (congrArg Scalar.raw e)

end Scalar

/-- A little endian number. -/
def leNat : Bytes → Nat
  | [] => 0
  | b :: bs => b.toNat + 256 * leNat bs

/-- `edwards25519/ge.go:422-437`: the scalar is written with 64 digits between -8 and 8 to the base
16, but the most significant digit is not bounded; this is its value. -/
def topDigit (n : Nat) : Nat := (n + 8 * ((16 ^ 63 - 1) / 15)) / 16 ^ 63

/-- The factor by which `Point.Mul` multiplies. `edwards25519/ge.go:389-404` (`selectCached`) finds no
multiple for a digit above 8 and takes the neutral element instead, so the most significant digit is
lost when it is larger. The precondition `a[31] <= 127` in the comment of `geScalarMult` excludes
this, but nothing checks it. -/
def multiplier (s : Scalar) : Int :=
  if topDigit (leNat s.raw) ≤ 8 then leNat s.raw
  else (leNat s.raw : Int) - topDigit (leNat s.raw) * 16 ^ 63

/-- The hexadecimal number of an 8 and 63 digits 7, the largest number that keeps its most significant
digit. It is above `2 ^ 255`. -/
def largestFactor : Nat := 8 * 16 ^ 63 + 7 * ((16 ^ 63 - 1) / 15)

/-- `Point.Mul` multiplies by the scalar itself. -/
def Scalar.Fits (s : Scalar) : Prop := leNat s.raw ≤ largestFactor

instance (s : Scalar) : Decidable s.Fits := inferInstanceAs (Decidable (_ ≤ _))

/-- The curve library: the field of scalars, points, and their operations. The group laws are only
required on multiples of the base point (where the real curve is a prime order group); points
outside of it, which can be decoded from text, are unconstrained. -/
class Curve where
  /-- integers modulo the group order -/
  F : Type
  [field : Field F]
  [decF : DecidableEq F]
  /-- canonical (reduced) encoding of a value; all arithmetic results are canonical -/
  canon : F → Scalar
  canon_value : ∀ a, (leNat (canon a).raw : F) = a
  canon_fits : ∀ a, (canon a).Fits
  Pt : Type
  [decPt : DecidableEq Pt]
  base : Pt
  add : Pt → Pt → Pt
  sub : Pt → Pt → Pt
  mul : Scalar → Pt → Pt
  /-- 32-byte encoding of a point; `Point.Equal` compares encodings -/
  enc : Pt → Bytes
  /-- `Point.UnmarshalBinary` -/
  dec : Bytes → Option Pt
  enc_len : ∀ p, (enc p).length = 32
  dec_enc : ∀ p, dec (enc p) = some p
  mul_base : ∀ s, mul s base = mul (canon (multiplier s : F)) base
  mul_mul : ∀ s a, mul s (mul (canon a) base) = mul (canon ((multiplier s : F) * a)) base
  add_mul : ∀ a b, add (mul (canon a) base) (mul (canon b) base) = mul (canon (a + b)) base
  sub_mul : ∀ a b, sub (mul (canon a) base) (mul (canon b) base) = mul (canon (a - b)) base
  mul_inj : ∀ a b, mul (canon a) base = mul (canon b) base → a = b
  /-- SHA-256 of a message read as a little endian number modulo the group order -/
  hashF : Bytes → F

attribute [instance_reducible, instance] Curve.field Curve.decF Curve.decPt

/-- The value of a raw scalar, as used by the arithmetic of scalars. -/
def Curve.val (C : Curve) (s : Scalar) : C.F := (leNat s.raw : C.F)

section
variable [C : Curve]

/-- kyber `scalar.String`: hex of the canonical encoding. -/
def scStr (s : Scalar) : Bytes := hexEncode (C.canon (C.val s)).raw

/-- kyber `point.String`: hex of the encoding. -/
def ptStr (p : C.Pt) : Bytes := hexEncode (C.enc p)

/-- `helper.go:10-16` (`createHash`). -/
def createHash (msg : Bytes) : Scalar := C.canon (C.hashF msg)

/-- `helper.go:18-20` (`genK`). -/
def genK (x : Scalar) (msg : Bytes) : Scalar := createHash (msg ++ scStr x)

/-- `helper.go:22-36` (`fromStringToScalar`): hex decoding, then kyber `UnmarshalFrom`, which reads
exactly 32 bytes from the reader (trailing bytes are left unread) and does not reduce. -/
def fromStringToScalar (s : Bytes) : Outcome Scalar :=
  match hexDecode s with
  | none => .err "hex: invalid input"
  | some b =>
    if h : 32 ≤ b.length then .ok ⟨b.take 32, by simp; omega⟩ else .err "unexpected EOF"

/-- `helper.go:38-51` (`fromStringToPoint`). -/
def fromStringToPoint (s : Bytes) : Outcome C.Pt :=
  match hexDecode s with
  | none => .err "hex: invalid input"
  | some b =>
    match C.dec b with
    | none => .err "invalid Ed25519 curve point"
    | some p => .ok p

/-- `publickey.go:25-27` (`Equals`): kyber points are compared by their encodings. -/
def pkEquals (p q : C.Pt) : Bool := C.enc p == C.enc q

/-- `privatekey.go:23-27` (`PublicKey`). -/
def publicKey (x : Scalar) : C.Pt := C.mul x C.base

/-- `privatekey_adapter.go:12-19` (`ToPrivateKey`). -/
def toPrivateKey (s : Bytes) : Outcome Scalar := fromStringToScalar s

/-- `publickey_adapter.go:12-19` (`ToPublicKey`). -/
def toPublicKey (s : Bytes) : Outcome C.Pt := fromStringToPoint s

/-! ## Plain signatures -/

/-- `signature.go:13-16`. -/
structure Signature where
  r : C.Pt
  s : Scalar

/-- `signature.go:28-40` (`PublicKey`): `(r - s*G) * (1/e)`; kyber's `Div` by zero yields zero. -/
def Signature.publicKey (sig : Signature) (msg : Bytes) : C.Pt :=
  let e := createHash (msg ++ ptStr sig.r)
  let y := C.sub sig.r (C.mul sig.s C.base)
  C.mul (C.canon (1 / C.val e)) y

/-- `signature.go:43-65` (`Verify`); `nonce` is the text of the random number drawn at line 46. -/
def Signature.verify (sig : Signature) (nonce : Bytes) : Bool :=
  let p := sig.publicKey nonce
  let e := createHash (nonce ++ ptStr sig.r)
  let sGv := C.sub sig.r (C.mul e p)
  let sG := C.mul sig.s C.base
  C.enc sG == C.enc sGv

/-- `signature.go:18-25` (`createSignature`). -/
def createSignature (r : C.Pt) (s : Scalar) (nonce : Bytes) : Outcome Signature :=
  let out : Signature := ⟨r, s⟩
  if out.verify nonce then .ok out else .err "the signature could not verify"

/-- `privatekey.go:86-105` (`Sign`). -/
def sign (x : Scalar) (msg nonce : Bytes) : Outcome Signature :=
  let k := genK x msg
  let r := C.mul k C.base
  let e := createHash (msg ++ ptStr r)
  let s := C.canon (C.val k - C.val (C.canon (C.val e * C.val x)))
  createSignature r s nonce

/-- `signature.go:68-71` (`String`); the delimiter is `#` (`sdk.go`). -/
def Signature.str (sig : Signature) : Bytes := b64Encode (ptStr sig.r ++ 35 :: scStr sig.s)

/-- `adapter.go:19-43` (`ToSignature`). -/
def toSignature (text nonce : Bytes) : Outcome Signature :=
  match b64Decode text with
  | none => .err "illegal base64 data"
  | some decoded =>
    match splitOn 35 decoded with
    | [a, b] => do
      let p ← fromStringToPoint a
      let s ← fromStringToScalar b
      createSignature p s nonce
    | _ => .err "the signature string was expected to have 2 sections"

/-! ## Ring signatures -/

/-- `ringsignature.go:10-14`. -/
structure RingSignature where
  ring : List C.Pt
  s : List Scalar
  e : Scalar

/-- `privatekey.go:32-41`: index of the first ring key that equals the signer's key. -/
def signerIndex (pub : C.Pt) : List C.Pt → Option Nat
  | [] => none
  | p :: ps => if pkEquals p pub then some 0 else (signerIndex pub ps).map (· + 1)

/-- One challenge of the ring: `H(m || s*G + e*P)` (`privatekey.go:71-74`,
`ringsignature.go:42-45`). -/
def ringStep (msg : Bytes) (s e : Scalar) (p : C.Pt) : Scalar :=
  createHash (msg ++ ptStr (C.add (C.mul s C.base) (C.mul e p)))

/-- `privatekey.go:67-76`: the loop `for i := begin; i != signer; i = (i+1) % r`. The arrays `es`
and `ss` are functions, unset entries are nil. `fuel` bounds the iterations; `r` always suffices
(see `ringLoop_spec`). Reading a nil scalar panics. -/
def ringLoop (x : Scalar) (msg : Bytes) (ring : List C.Pt) (signer : Nat) :
    Nat → Nat → (Nat → Option Scalar) → (Nat → Option Scalar) →
      Outcome ((Nat → Option Scalar) × (Nat → Option Scalar))
  | 0, _, _, _ => .crash .stackOverflow
  | fuel + 1, i, es, ss =>
    if i = signer then .ok (es, ss)
    else
      let si := genK x (msg ++ natDec i)
      match es i with
      | none => .crash .nilDeref
      | some ei =>
        match ring[i]? with
        | none => .crash .indexOutOfRange
        | some pi =>
          let next := (i + 1) % ring.length
          ringLoop x msg ring signer fuel next
            (fun j => if j = next then some (ringStep msg si ei pi) else es j)
            (fun j => if j = i then some si else ss j)

/-- `privatekey.go:30-83` (`RingSign`). A nil scalar in the result would panic at its first use;
here the function itself would. -/
def ringSign (x : Scalar) (msg : Bytes) (ring : List C.Pt) : Outcome RingSignature :=
  match signerIndex (publicKey x) ring with
  | none => .err "the signer PublicKey is not in the ring"
  | some signer =>
    let k := genK x msg
    let r := ring.length
    let begin := (signer + 1) % r
    let e0 := createHash (msg ++ ptStr (C.mul k C.base))
    match ringLoop x msg ring signer r begin (fun j => if j = begin then some e0 else none)
        (fun _ => none) with
    | .err m => .err m
    | .crash c => .crash c
    | .ok (es, ss) =>
      match es signer with
      | none => .crash .nilDeref
      | some esig =>
        let sig := C.canon (C.val k - C.val (C.canon (C.val esig * C.val x)))
        let ss' := fun j => if j = signer then some sig else ss j
        match es 0 with
        | none => .crash .nilDeref
        | some e =>
          match mapO (fun j => Outcome.deref (ss' j)) (List.range r) with
          | .ok s => .ok ⟨ring, s, e⟩
          | .err m => .err m
          | .crash c => .crash c

/-- `ringsignature.go:41-46`: the loop of `Verify`; `app.s[i]` panics when there are too few
scalars. -/
def ringVerifyLoop (msg : Bytes) : List C.Pt → List Scalar → Scalar → Outcome Scalar
  | [], _, e => .ok e
  | _ :: _, [], _ => .crash .indexOutOfRange
  | p :: ps, s :: ss, e => ringVerifyLoop msg ps ss (ringStep msg s e p)

/-- `ringsignature.go:32-49` (`Verify`); `Scalar.Equal` compares raw bytes. -/
def RingSignature.verify (sig : RingSignature) (msg : Bytes) : Outcome Bool :=
  match ringVerifyLoop msg sig.ring sig.s sig.e with
  | .ok e => .ok (decide (sig.e = e))
  | .err m => .err m
  | .crash c => .crash c

/-- `ringsignature.go:53-56` and `58-61`: every element followed by `|`. -/
def elements (l : List Bytes) : Bytes := (l.map fun x => x ++ [124]).flatten

/-- `ringsignature.go:52-65` (`String`). -/
def RingSignature.str (sig : RingSignature) : Bytes :=
  b64Encode (elements (sig.ring.map ptStr) ++ 35 :: (elements (sig.s.map scStr) ++ 35 :: scStr sig.e))

/-- `ringsignature_adapter.go:26-75` (`ToSignature`); empty elements are skipped. -/
def toRingSignature (text : Bytes) : Outcome RingSignature :=
  match b64Decode text with
  | none => .err "illegal base64 data"
  | some decoded =>
    match splitOn 35 decoded with
    | [a, b, c] => do
      let ring ← mapO fromStringToPoint ((splitOn 124 a).filter (· ≠ []))
      let s ← mapO fromStringToScalar ((splitOn 124 b).filter (· ≠ []))
      let e ← fromStringToScalar c
      return ⟨ring, s, e⟩
    | _ => .err "the ring signature string was expected to have 3 sections"

variable [Sha512]

/-- `ringsignature_adapter.go:89-100`: position by position comparison of hashes. -/
def compareHashes : List C.Pt → List Hash → Outcome Bool
  | [], _ => .ok true
  | _ :: _, [] => .crash .indexOutOfRange
  | p :: ps, h :: hs =>
    match fromString (ptStr p) with
    | .ok k => if k.compare h then compareHashes ps hs else .err "the ring PublicKey hash do not match"
    | .err _ => .err "there was an error while hashing a ring PublicKey"
    | .crash c => .crash c

/-- `ringsignature_adapter.go:78-103` (`ToVerification`). -/
def toVerification (sig : RingSignature) (msg : Bytes) (hashes : List Hash) : Outcome Bool :=
  match sig.verify msg with
  | .err m => .err m
  | .crash c => .crash c
  | .ok false => .err "the signature could not be validated against the message"
  | .ok true =>
    if hashes.length ≠ sig.ring.length then .err "the length of the given hashes do not match"
    else compareHashes sig.ring hashes

end

end Verif
