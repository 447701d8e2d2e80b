import Verif.Model.Fips

/-!
# Hash objects

`Model/Sha2` takes a text as a whole. Here are the objects of `crypto/sha256` and `crypto/sha512` (Go 1.13) that a
text is written to in pieces, and `crypto/rsa`, which uses one object for several texts
(`libs/cryptography/pk/encryption/privatekey.go:36-44`, `libs/cryptography/pk/encryption/public/key.go:26-30`).
-/

namespace Verif

/-- `digest` of both packages: `h`, the bytes `x[:nx]` that wait for the rest of a block, and `len`, a `uint64`. -/
structure Hasher where
  h : Sha2.Regs
  x : Bytes
  len : Nat
  deriving DecidableEq

namespace Sha2

variable (H : Sha2)

/-- `New`. -/
def fresh : Hasher := ⟨H.start, [], 0⟩

/-- `Reset`. -/
abbrev reset (_ : Hasher) : Hasher := H.fresh

/-- The first part of `Write`, if bytes are waiting: they are filled up to a block. The last component is what
is left of `p`. -/
def fill (d : Hasher) (p : Bytes) : Regs × Bytes × Bytes :=
  if d.x.length = 0 then (d.h, d.x, p)
  else
    let n := min (H.chunk - d.x.length) p.length
    let x := d.x ++ p.take n
    if x.length = H.chunk then (H.compress d.h x, [], p.drop n) else (d.h, x, p.drop n)

/-- The rest of `Write`: whole blocks are used where they are, the remaining bytes wait. -/
def absorb (h : Regs) (x p : Bytes) : Regs × Bytes :=
  if H.chunk ≤ p.length then
    let n := p.length / H.chunk * H.chunk
    ((H.blocks (p.take n)).foldl H.compress h, if p.drop n = [] then x else p.drop n)
  else (h, if p = [] then x else p)

/-- `Write`. -/
def write (d : Hasher) (p : Bytes) : Hasher :=
  let f := H.fill d p
  let a := H.absorb f.1 f.2.1 f.2.2
  ⟨a.1, a.2, (d.len + p.length) % 2 ^ 64⟩

/-- `checkSum`: the padding is written like a text; bytes that are left are a panic (`d.nx != 0`). -/
def checkSum (d : Hasher) : Outcome Bytes :=
  let m := d.len % H.chunk
  let end' := H.chunk - 2 * H.bytes
  let d₁ := H.write d (128 :: List.replicate ((if m < end' then end' - m else H.chunk + end' - m) - 1) 0)
  let d₂ := H.write d₁ (leftPad (2 * H.bytes) (beBytes (8 * d.len % 2 ^ 64)))
  if d₂.x.length = 0 then .ok (H.digest d₂.h) else .crash .invalidArgument

/-- Calls on an object. -/
inductive Call where
  | reset
  | write (p : Bytes)
  | sum
  deriving DecidableEq

/-- What the calls of `Sum` return; `Sum` works on a copy. -/
def run : Hasher → List Call → List (Outcome Bytes)
  | _, [] => []
  | d, .reset :: l => run (H.reset d) l
  | d, .write p :: l => run (H.write d p) l
  | d, .sum :: l => H.checkSum d :: run d l

end Sha2

/-- `incCounter` of `crypto/rsa`. -/
def incCounter (c : UInt8 × UInt8 × UInt8 × UInt8) : UInt8 × UInt8 × UInt8 × UInt8 :=
  if c.2.2.2 + 1 ≠ 0 then (c.1, c.2.1, c.2.2.1, c.2.2.2 + 1)
  else if c.2.2.1 + 1 ≠ 0 then (c.1, c.2.1, c.2.2.1 + 1, 0)
  else if c.2.1 + 1 ≠ 0 then (c.1, c.2.1 + 1, 0, 0)
  else (c.1 + 1, 0, 0, 0)

/-- The loop of `mgf1XOR` over the bytes of `out` that are not done; `n` is their number, at least. The object is
given back. -/
def mgf1Loop (seed : Bytes) : Nat → Hasher → UInt8 × UInt8 × UInt8 × UInt8 → Bytes → Outcome (Bytes × Hasher)
  | _, d, _, [] => .ok ([], d)
  | 0, _, _, _ :: _ => .err "not reached"
  | n + 1, d, c, x :: out => do
    let d := Sha2.sha256.write (Sha2.sha256.write d seed) [c.1, c.2.1, c.2.2.1, c.2.2.2]
    let s ← Sha2.sha256.checkSum d
    let (rest, d) ← mgf1Loop seed n (Sha2.sha256.reset d) (incCounter c) ((x :: out).drop s.length)
    .ok (xorBytes (x :: out) s ++ rest, d)

/-- `mgf1XOR(out, hash, seed)`. -/
def mgf1Object (d : Hasher) (out seed : Bytes) : Outcome (Bytes × Hasher) :=
  mgf1Loop seed out.length d (0, 0, 0, 0) out

/-- `public/key.go:26-30` (`Encrypt`), `rsa.EncryptOAEP` with the object `d`, which is reset first. -/
def rsaEncryptObject (d : Hasher) (k : RsaPub) (seed msg : Bytes) : Outcome Bytes := do
  checkPub k
  let d := Sha2.sha256.reset d
  if k.size < msg.length + 66 then
    .err "crypto/rsa: message too long for RSA public key size"
  else do
    let d := Sha2.sha256.write d []
    let label ← Sha2.sha256.checkSum d
    let d := Sha2.sha256.reset d
    let (db, d) ← mgf1Object d (label ++ (List.replicate (k.size - msg.length - 66) 0 ++ 1 :: msg)) seed
    let (masked, _) ← mgf1Object d seed db
    .ok (leftPad k.size (beBytes (beNat (0 :: (masked ++ db)) ^ k.e % k.n)))

/-- `privatekey.go:36-44` (`Decrypt`), `rsa.DecryptOAEP` with the object `d`, which is not reset first. -/
def rsaDecryptObject (d : Hasher) (k : RsaKey) (r : Nat) (c : Bytes) : Outcome Bytes := do
  checkPub k.pub
  Outcome.guardNot (k.pub.size < c.length || k.pub.size < 66) "crypto/rsa: decryption error"
  let m ← rsaDecryptNat k r (beNat c)
  let d := Sha2.sha256.write d []
  let label ← Sha2.sha256.checkSum d
  let d := Sha2.sha256.reset d
  let em := leftPad k.pub.size (beBytes m)
  let (seed, d) ← mgf1Object d ((em.drop 1).take 32) (em.drop 33)
  let (db, _) ← mgf1Object d (em.drop 33) seed
  let rest := db.drop 32
  let s := sepLoop 0 true 0 false rest
  if em.headD 0 == 0 && db.take 32 == label && !s.2.2 && !s.1 then .ok (rest.drop (s.2.1 + 1))
  else .err "crypto/rsa: decryption error"

end Verif
