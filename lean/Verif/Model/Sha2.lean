import Verif.Base.BigNat

/-!
# SHA-256 and SHA-512

The hash functions of `crypto/sha256` and `crypto/sha512` (Go 1.13; FIPS 180-4). Everything else in the model
takes them as parameters; here they are written out, on numbers below `2 ^ bits`.
-/

namespace Verif

/-- What distinguishes the functions of the family: the length of the words, the round constants, the initial
values, and the distances of the rotations and shifts. -/
structure Sha2 where
  bits : Nat
  k : List Nat
  init : List Nat
  big0 : Nat × Nat × Nat
  big1 : Nat × Nat × Nat
  small0 : Nat × Nat × Nat
  small1 : Nat × Nat × Nat

namespace Sha2

/-- `crypto/sha256`, as used by `libs/cryptography/encryption/sdk.go:11-15` and
`libs/cryptography/pk/encryption/privatekey.go`. -/
def sha256 : Sha2 where
  bits := 32
  k := [
    0x428a2f98, 0x71374491, 0xb5c0fbcf, 0xe9b5dba5, 0x3956c25b, 0x59f111f1, 0x923f82a4, 0xab1c5ed5,
    0xd807aa98, 0x12835b01, 0x243185be, 0x550c7dc3, 0x72be5d74, 0x80deb1fe, 0x9bdc06a7, 0xc19bf174,
    0xe49b69c1, 0xefbe4786, 0x0fc19dc6, 0x240ca1cc, 0x2de92c6f, 0x4a7484aa, 0x5cb0a9dc, 0x76f988da,
    0x983e5152, 0xa831c66d, 0xb00327c8, 0xbf597fc7, 0xc6e00bf3, 0xd5a79147, 0x06ca6351, 0x14292967,
    0x27b70a85, 0x2e1b2138, 0x4d2c6dfc, 0x53380d13, 0x650a7354, 0x766a0abb, 0x81c2c92e, 0x92722c85,
    0xa2bfe8a1, 0xa81a664b, 0xc24b8b70, 0xc76c51a3, 0xd192e819, 0xd6990624, 0xf40e3585, 0x106aa070,
    0x19a4c116, 0x1e376c08, 0x2748774c, 0x34b0bcb5, 0x391c0cb3, 0x4ed8aa4a, 0x5b9cca4f, 0x682e6ff3,
    0x748f82ee, 0x78a5636f, 0x84c87814, 0x8cc70208, 0x90befffa, 0xa4506ceb, 0xbef9a3f7, 0xc67178f2]
  init := [
    0x6a09e667, 0xbb67ae85, 0x3c6ef372, 0xa54ff53a, 0x510e527f, 0x9b05688c, 0x1f83d9ab, 0x5be0cd19]
  big0 := (2, 13, 22)
  big1 := (6, 11, 25)
  small0 := (7, 18, 3)
  small1 := (17, 19, 10)

/-- `crypto/sha512`, as used by `libs/hash/adapter.go:17-34`. -/
def sha512 : Sha2 where
  bits := 64
  k := [
    0x428a2f98d728ae22, 0x7137449123ef65cd, 0xb5c0fbcfec4d3b2f, 0xe9b5dba58189dbbc,
    0x3956c25bf348b538, 0x59f111f1b605d019, 0x923f82a4af194f9b, 0xab1c5ed5da6d8118,
    0xd807aa98a3030242, 0x12835b0145706fbe, 0x243185be4ee4b28c, 0x550c7dc3d5ffb4e2,
    0x72be5d74f27b896f, 0x80deb1fe3b1696b1, 0x9bdc06a725c71235, 0xc19bf174cf692694,
    0xe49b69c19ef14ad2, 0xefbe4786384f25e3, 0x0fc19dc68b8cd5b5, 0x240ca1cc77ac9c65,
    0x2de92c6f592b0275, 0x4a7484aa6ea6e483, 0x5cb0a9dcbd41fbd4, 0x76f988da831153b5,
    0x983e5152ee66dfab, 0xa831c66d2db43210, 0xb00327c898fb213f, 0xbf597fc7beef0ee4,
    0xc6e00bf33da88fc2, 0xd5a79147930aa725, 0x06ca6351e003826f, 0x142929670a0e6e70,
    0x27b70a8546d22ffc, 0x2e1b21385c26c926, 0x4d2c6dfc5ac42aed, 0x53380d139d95b3df,
    0x650a73548baf63de, 0x766a0abb3c77b2a8, 0x81c2c92e47edaee6, 0x92722c851482353b,
    0xa2bfe8a14cf10364, 0xa81a664bbc423001, 0xc24b8b70d0f89791, 0xc76c51a30654be30,
    0xd192e819d6ef5218, 0xd69906245565a910, 0xf40e35855771202a, 0x106aa07032bbd1b8,
    0x19a4c116b8d2d0c8, 0x1e376c085141ab53, 0x2748774cdf8eeb99, 0x34b0bcb5e19b48a8,
    0x391c0cb3c5c95a63, 0x4ed8aa4ae3418acb, 0x5b9cca4f7763e373, 0x682e6ff3d6b2b8a3,
    0x748f82ee5defb2fc, 0x78a5636f43172f60, 0x84c87814a1f0ab72, 0x8cc702081a6439ec,
    0x90befffa23631e28, 0xa4506cebde82bde9, 0xbef9a3f7b2c67915, 0xc67178f2e372532b,
    0xca273eceea26619c, 0xd186b8c721c0c207, 0xeada7dd6cde0eb1e, 0xf57d4f7fee6ed178,
    0x06f067aa72176fba, 0x0a637dc5a2c898a6, 0x113f9804bef90dae, 0x1b710b35131c471b,
    0x28db77f523047d84, 0x32caab7b40c72493, 0x3c9ebe0a15c9bebc, 0x431d67c49c100d4c,
    0x4cc5d4becb3e42b6, 0x597f299cfc657e2a, 0x5fcb6fab3ad6faec, 0x6c44198c4a475817]
  init := [
    0x6a09e667f3bcc908, 0xbb67ae8584caa73b, 0x3c6ef372fe94f82b, 0xa54ff53a5f1d36f1,
    0x510e527fade682d1, 0x9b05688c2b3e6c1f, 0x1f83d9abfb41bd6b, 0x5be0cd19137e2179]
  big0 := (28, 34, 39)
  big1 := (14, 18, 41)
  small0 := (1, 8, 7)
  small1 := (19, 61, 6)

variable (H : Sha2)

/-- The number of bytes of a word. -/
def bytes : Nat := H.bits / 8

/-- The number of bytes of a block: 16 words. -/
def chunk : Nat := 16 * H.bytes

/-- `bits.RotateLeft64(x, -n)`, or the shifts and the disjunction it stands for. -/
def rotr (x n : Nat) : Nat := (x >>> n) ||| ((x <<< (H.bits - n)) % 2 ^ H.bits)

/-- Three rotations. -/
def rot3 (r : Nat × Nat × Nat) (x : Nat) : Nat := H.rotr x r.1 ^^^ H.rotr x r.2.1 ^^^ H.rotr x r.2.2

/-- Two rotations and a shift. -/
def rot2 (r : Nat × Nat × Nat) (x : Nat) : Nat := H.rotr x r.1 ^^^ H.rotr x r.2.1 ^^^ (x >>> r.2.2)

/-- `a & b ^ ^a & c`. -/
def choice (a b c : Nat) : Nat := (a &&& b) ^^^ ((2 ^ H.bits - 1 - a) &&& c)

/-- `a & b ^ a & c ^ b & c`. -/
def majority (a b c : Nat) : Nat := (a &&& b) ^^^ (a &&& c) ^^^ (b &&& c)

/-- The next word of the schedule; the words so far are in reverse order. -/
def nextWord (w : List Nat) : Nat :=
  (H.rot2 H.small1 (w.getD 1 0) + w.getD 6 0 + H.rot2 H.small0 (w.getD 14 0) + w.getD 15 0) % 2 ^ H.bits

/-- The schedule in reverse order: the words of the block, followed by as many as there are further rounds. -/
def schedule (w : List Nat) : List Nat := (fun w => H.nextWord w :: w)^[H.k.length - 16] w.reverse

/-- The eight registers. -/
structure Regs where
  a : Nat
  b : Nat
  c : Nat
  d : Nat
  e : Nat
  f : Nat
  g : Nat
  h : Nat
  deriving DecidableEq

/-- A round with a constant and a word of the schedule. -/
def round (r : Regs) (kw : Nat × Nat) : Regs :=
  let t1 := r.h + H.rot3 H.big1 r.e + H.choice r.e r.f r.g + kw.1 + kw.2
  let t2 := H.rot3 H.big0 r.a + majority r.a r.b r.c
  ⟨(t1 + t2) % 2 ^ H.bits, r.a, r.b, r.c, (r.d + t1) % 2 ^ H.bits, r.e, r.f, r.g⟩

/-- The words of a block. -/
def words (block : Bytes) : List Nat :=
  (List.range 16).map fun i => beNat ((block.drop (i * H.bytes)).take H.bytes)

/-- `blockGeneric` of both packages, for one block. -/
def compress (r : Regs) (block : Bytes) : Regs :=
  let s := (H.k.zip (H.schedule (H.words block)).reverse).foldl H.round r
  let m := 2 ^ H.bits
  ⟨(r.a + s.a) % m, (r.b + s.b) % m, (r.c + s.c) % m, (r.d + s.d) % m,
    (r.e + s.e) % m, (r.f + s.f) % m, (r.g + s.g) % m, (r.h + s.h) % m⟩

/-- The first part of `checkSum`: a one, zeros up to the end of a block, and the number of bits, which is a
`uint64`, on two words. -/
def padding (n : Nat) : Bytes :=
  128 :: (List.replicate ((H.chunk - (n + 1 + 2 * H.bytes) % H.chunk) % H.chunk) 0 ++
    leftPad (2 * H.bytes) (beBytes (8 * n % 2 ^ 64)))

/-- The blocks of a text whose length is a multiple of the block length. -/
def blocks (b : Bytes) : List Bytes :=
  (List.range (b.length / H.chunk)).map fun i => (b.drop (i * H.chunk)).take H.chunk

/-- `Reset`. -/
def start : Regs :=
  ⟨H.init.getD 0 0, H.init.getD 1 0, H.init.getD 2 0, H.init.getD 3 0,
    H.init.getD 4 0, H.init.getD 5 0, H.init.getD 6 0, H.init.getD 7 0⟩

/-- A word as bytes (`putUint64`). -/
def wordBytes (x : Nat) : Bytes := leftPad H.bytes (beBytes (x % 2 ^ H.bits))

/-- The second part of `checkSum`: the registers as bytes. -/
def digest (r : Regs) : Bytes :=
  H.wordBytes r.a ++ (H.wordBytes r.b ++ (H.wordBytes r.c ++ (H.wordBytes r.d ++
    (H.wordBytes r.e ++ (H.wordBytes r.f ++ (H.wordBytes r.g ++ H.wordBytes r.h))))))

/-- `Reset`, `Write` and `Sum`. The text is taken as a whole. -/
def sum (m : Bytes) : Bytes := H.digest ((H.blocks (m ++ H.padding m.length)).foldl H.compress H.start)

end Sha2

end Verif
