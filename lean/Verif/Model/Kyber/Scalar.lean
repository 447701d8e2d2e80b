import Verif.Model.Kyber.Field
import Verif.Base.BigNat
import Mathlib.Logic.Function.Basic

/-!
# Model of `vendor/go.dedis.ch/kyber/v3/group/edwards25519/scalar.go`

Scalars are 32 bytes. Products and differences are computed on limbs of 21 bits in `int64`, kept in a
function from indices; sums of several terms are wrapped once, at the end, which is the same. Line
numbers refer to `scalar.go` unless another file is named. `math/big` is taken at face value: a
`big.Int` is a number.
-/

namespace Verif.Kyber

/-- `const.go:15` (`primeOrder`). -/
def primeOrder : Nat := 7237005577332262213973186563042994240857116359379907606001950938285454250989

/-- `const.go:20` (`lMinus2`). -/
def lMinus2 : Nat := 7237005577332262213973186563042994240857116359379907606001950938285454250987

/-! ## Conversions through `mod.Int` -/

/-- `mod/int.go:397-414` (`LittleEndian(32, 32)`) of a value of at most 32 bytes. -/
def littleEndian32 (n : Nat) : Bytes :=
  (beBytes n).reverse ++ List.replicate (32 - (beBytes n).length) 0

/-- `mod/int.go:385-392` (`SetBytes`, little endian) with the modulus `primeOrder`. -/
def newIntBytes (b : Bytes) : Nat := beNat b.reverse % primeOrder

/-- Lines 142-144 (`SetBytes`). -/
def scSetBytes (b : Bytes) : Bytes := littleEndian32 (newIntBytes b)

/-- Lines 62-64 (`toInt`) and 161-163 (`MarshalBinary`): `mod/int.go:315-330`, little endian. -/
def scMarshal (v : Bytes) : Bytes := littleEndian32 (newIntBytes v)

/-- Lines 147-153 (`String`). -/
def scString (v : Bytes) : Bytes :=
  hexEncode (scMarshal v ++ List.replicate (32 - (scMarshal v).length) 0)

/-- Lines 171-177 (`UnmarshalBinary`). -/
def scUnmarshal (b : Bytes) : Option Bytes := if b.length ≠ 32 then none else some b

/-- Lines 33-37 (`Equal`). -/
def scEqual (v w : Bytes) : Bool := v == w

/-! ## Limbs -/

/-- `2097151 & x`, for `x` that is not negative. -/
def mask21 (x : Int) : Int := ((2097151 &&& x.toNat : Nat) : Int)

/-- Lines 1486-1497 (and 1064-1075): the twelve limbs of a scalar. -/
def scLoad (a : Bytes) : Nat → Int
  | 0 => mask21 (load3 a 0)
  | 1 => mask21 (load4 a 2 / 2 ^ 5)
  | 2 => mask21 (load3 a 5 / 2 ^ 2)
  | 3 => mask21 (load4 a 7 / 2 ^ 7)
  | 4 => mask21 (load4 a 10 / 2 ^ 4)
  | 5 => mask21 (load3 a 13 / 2 ^ 1)
  | 6 => mask21 (load4 a 15 / 2 ^ 6)
  | 7 => mask21 (load3 a 18 / 2 ^ 3)
  | 8 => mask21 (load3 a 21)
  | 9 => mask21 (load4 a 23 / 2 ^ 5)
  | 10 => mask21 (load3 a 26 / 2 ^ 2)
  | 11 => load4 a 28 / 2 ^ 7
  | _ => 0

/-- Lines 1524-1547. -/
def scProduct (a b : Nat → Int) : Nat → Int
  | 0 => w64 (a 0 * b 0)
  | 1 => w64 (a 0 * b 1 + a 1 * b 0)
  | 2 => w64 (a 0 * b 2 + a 1 * b 1 + a 2 * b 0)
  | 3 => w64 (a 0 * b 3 + a 1 * b 2 + a 2 * b 1 + a 3 * b 0)
  | 4 => w64 (a 0 * b 4 + a 1 * b 3 + a 2 * b 2 + a 3 * b 1 + a 4 * b 0)
  | 5 => w64 (a 0 * b 5 + a 1 * b 4 + a 2 * b 3 + a 3 * b 2 + a 4 * b 1 + a 5 * b 0)
  | 6 => w64 (a 0 * b 6 + a 1 * b 5 + a 2 * b 4 + a 3 * b 3 + a 4 * b 2 + a 5 * b 1 + a 6 * b 0)
  | 7 => w64 (a 0 * b 7 + a 1 * b 6 + a 2 * b 5 + a 3 * b 4 + a 4 * b 3 + a 5 * b 2 + a 6 * b 1 +
      a 7 * b 0)
  | 8 => w64 (a 0 * b 8 + a 1 * b 7 + a 2 * b 6 + a 3 * b 5 + a 4 * b 4 + a 5 * b 3 + a 6 * b 2 +
      a 7 * b 1 + a 8 * b 0)
  | 9 => w64 (a 0 * b 9 + a 1 * b 8 + a 2 * b 7 + a 3 * b 6 + a 4 * b 5 + a 5 * b 4 + a 6 * b 3 +
      a 7 * b 2 + a 8 * b 1 + a 9 * b 0)
  | 10 => w64 (a 0 * b 10 + a 1 * b 9 + a 2 * b 8 + a 3 * b 7 + a 4 * b 6 + a 5 * b 5 + a 6 * b 4 +
      a 7 * b 3 + a 8 * b 2 + a 9 * b 1 + a 10 * b 0)
  | 11 => w64 (a 0 * b 11 + a 1 * b 10 + a 2 * b 9 + a 3 * b 8 + a 4 * b 7 + a 5 * b 6 + a 6 * b 5 +
      a 7 * b 4 + a 8 * b 3 + a 9 * b 2 + a 10 * b 1 + a 11 * b 0)
  | 12 => w64 (a 1 * b 11 + a 2 * b 10 + a 3 * b 9 + a 4 * b 8 + a 5 * b 7 + a 6 * b 6 + a 7 * b 5 +
      a 8 * b 4 + a 9 * b 3 + a 10 * b 2 + a 11 * b 1)
  | 13 => w64 (a 2 * b 11 + a 3 * b 10 + a 4 * b 9 + a 5 * b 8 + a 6 * b 7 + a 7 * b 6 + a 8 * b 5 +
      a 9 * b 4 + a 10 * b 3 + a 11 * b 2)
  | 14 => w64 (a 3 * b 11 + a 4 * b 10 + a 5 * b 9 + a 6 * b 8 + a 7 * b 7 + a 8 * b 6 + a 9 * b 5 +
      a 10 * b 4 + a 11 * b 3)
  | 15 => w64 (a 4 * b 11 + a 5 * b 10 + a 6 * b 9 + a 7 * b 8 + a 8 * b 7 + a 9 * b 6 +
      a 10 * b 5 + a 11 * b 4)
  | 16 => w64 (a 5 * b 11 + a 6 * b 10 + a 7 * b 9 + a 8 * b 8 + a 9 * b 7 + a 10 * b 6 +
      a 11 * b 5)
  | 17 => w64 (a 6 * b 11 + a 7 * b 10 + a 8 * b 9 + a 9 * b 8 + a 10 * b 7 + a 11 * b 6)
  | 18 => w64 (a 7 * b 11 + a 8 * b 10 + a 9 * b 9 + a 10 * b 8 + a 11 * b 7)
  | 19 => w64 (a 8 * b 11 + a 9 * b 10 + a 10 * b 9 + a 11 * b 8)
  | 20 => w64 (a 9 * b 11 + a 10 * b 10 + a 11 * b 9)
  | 21 => w64 (a 10 * b 11 + a 11 * b 10)
  | 22 => w64 (a 11 * b 11)
  | 23 => 0
  | _ => 0

/-- Lines 1090-1113: 16 times the order is added to keep the difference positive. -/
def scDifference (a c : Nat → Int) : Nat → Int
  | 0 => w64 (1916624 - c 0 + a 0)
  | 1 => w64 (863866 - c 1 + a 1)
  | 2 => w64 (18828 - c 2 + a 2)
  | 3 => w64 (1284811 - c 3 + a 3)
  | 4 => w64 (2007799 - c 4 + a 4)
  | 5 => w64 (456654 - c 5 + a 5)
  | 6 => w64 (5 - c 6 + a 6)
  | 7 => w64 (0 - c 7 + a 7)
  | 8 => w64 (0 - c 8 + a 8)
  | 9 => w64 (0 - c 9 + a 9)
  | 10 => w64 (0 - c 10 + a 10)
  | 11 => w64 (0 - c 11 + a 11)
  | 12 => 16
  | _ => 0

/-! ## Carries -/

/-- The statements of lines 1549-1874 (the same in lines 1115-1440). -/
inductive ScOp where
  /-- `carry[i] = (si + (1 << 20)) >> 21; s(i+1) += carry[i]; si -= carry[i] << 21` -/
  | round (i : Nat)
  /-- `carry[i] = si >> 21; s(i+1) += carry[i]; si -= carry[i] << 21` -/
  | floor (i : Nat)
  /-- `s(i-12) += si * 666643; ...; s(i-7) -= si * 683901; si = 0` -/
  | fold (i : Nat)

/-- `s[i] += x`. -/
def addTo (s : Nat → Int) (i : Nat) (x : Int) : Nat → Int := Function.update s i (w64 (s i + x))

/-- A carry of `c` out of limb `i`. -/
def moveCarry (s : Nat → Int) (i : Nat) (c : Int) : Nat → Int :=
  addTo (addTo s (i + 1) c) i (- w64 (c * 2 ^ 21))

/-- Their effect. -/
def ScOp.run (s : Nat → Int) : ScOp → Nat → Int
  | .round i => moveCarry s i (w64 (s i + 2 ^ 20) / 2 ^ 21)
  | .floor i => moveCarry s i (s i / 2 ^ 21)
  | .fold i =>
    let t := s i
    let s := addTo s (i - 12) (w64 (t * 666643))
    let s := addTo s (i - 11) (w64 (t * 470296))
    let s := addTo s (i - 10) (w64 (t * 654183))
    let s := addTo s (i - 9) (- w64 (t * 997805))
    let s := addTo s (i - 8) (w64 (t * 136657))
    let s := addTo s (i - 7) (- w64 (t * 683901))
    Function.update s i 0

/-- Lines 1549-1795. -/
def scOps1 : List ScOp :=
  [.round 0, .round 2, .round 4, .round 6, .round 8, .round 10, .round 12, .round 14, .round 16,
    .round 18, .round 20, .round 22, .round 1, .round 3, .round 5, .round 7, .round 9, .round 11,
    .round 13, .round 15, .round 17, .round 19, .round 21, .fold 23, .fold 22, .fold 21, .fold 20,
    .fold 19, .fold 18, .round 6, .round 8, .round 10, .round 12, .round 14, .round 16, .round 7,
    .round 9, .round 11, .round 13, .round 15, .fold 17, .fold 16, .fold 15, .fold 14, .fold 13,
    .fold 12, .round 0, .round 2, .round 4, .round 6, .round 8, .round 10, .round 1, .round 3,
    .round 5, .round 7, .round 9, .round 11, .fold 12]

/-- Lines 1797-1832. -/
def scOps2 : List ScOp :=
  [.floor 0, .floor 1, .floor 2, .floor 3, .floor 4, .floor 5, .floor 6, .floor 7, .floor 8,
    .floor 9, .floor 10, .floor 11]

/-- Lines 1834-1874. -/
def scOps3 : List ScOp :=
  [.fold 12, .floor 0, .floor 1, .floor 2, .floor 3, .floor 4, .floor 5, .floor 6, .floor 7,
    .floor 8, .floor 9, .floor 10]

/-- All of them. -/
def scReduceLimbs (s : Nat → Int) : Nat → Int :=
  (scOps1 ++ scOps2 ++ scOps3).foldl ScOp.run s

/-- Bitwise or of `int64`. -/
def lor64 (a b : Int) : Int := (BitVec.ofInt 64 a ||| BitVec.ofInt 64 b).toInt

/-- Lines 1876-1907. -/
def scPack (s : Nat → Int) : Bytes :=
  [ byteOf (s 0 / 2 ^ 0),
    byteOf (s 0 / 2 ^ 8),
    byteOf (lor64 (s 0 / 2 ^ 16) (w64 (s 1 * 2 ^ 5))),
    byteOf (s 1 / 2 ^ 3),
    byteOf (s 1 / 2 ^ 11),
    byteOf (lor64 (s 1 / 2 ^ 19) (w64 (s 2 * 2 ^ 2))),
    byteOf (s 2 / 2 ^ 6),
    byteOf (lor64 (s 2 / 2 ^ 14) (w64 (s 3 * 2 ^ 7))),
    byteOf (s 3 / 2 ^ 1),
    byteOf (s 3 / 2 ^ 9),
    byteOf (lor64 (s 3 / 2 ^ 17) (w64 (s 4 * 2 ^ 4))),
    byteOf (s 4 / 2 ^ 4),
    byteOf (s 4 / 2 ^ 12),
    byteOf (lor64 (s 4 / 2 ^ 20) (w64 (s 5 * 2 ^ 1))),
    byteOf (s 5 / 2 ^ 7),
    byteOf (lor64 (s 5 / 2 ^ 15) (w64 (s 6 * 2 ^ 6))),
    byteOf (s 6 / 2 ^ 2),
    byteOf (s 6 / 2 ^ 10),
    byteOf (lor64 (s 6 / 2 ^ 18) (w64 (s 7 * 2 ^ 3))),
    byteOf (s 7 / 2 ^ 5),
    byteOf (s 7 / 2 ^ 13),
    byteOf (s 8 / 2 ^ 0),
    byteOf (s 8 / 2 ^ 8),
    byteOf (lor64 (s 8 / 2 ^ 16) (w64 (s 9 * 2 ^ 5))),
    byteOf (s 9 / 2 ^ 3),
    byteOf (s 9 / 2 ^ 11),
    byteOf (lor64 (s 9 / 2 ^ 19) (w64 (s 10 * 2 ^ 2))),
    byteOf (s 10 / 2 ^ 6),
    byteOf (lor64 (s 10 / 2 ^ 14) (w64 (s 11 * 2 ^ 7))),
    byteOf (s 11 / 2 ^ 1),
    byteOf (s 11 / 2 ^ 9),
    byteOf (s 11 / 2 ^ 17) ]

/-- Lines 1485-1908. -/
def scMul (a b : Bytes) : Bytes := scPack (scReduceLimbs (scProduct (scLoad a) (scLoad b)))

/-- Lines 1063-1474. -/
def scSub (a c : Bytes) : Bytes := scPack (scReduceLimbs (scDifference (scLoad a) (scLoad c)))

/-! ## Inversion and division -/

/-- Lines 73-76 (`One`). -/
def scOne : Bytes := 1 :: List.replicate 31 0

/-- Lines 122-130: the loop, with `i + 1` rounds left. -/
def scInvLoop (a : Bytes) : Nat → Bytes → Bytes
  | 0, res => res
  | i + 1, res =>
    let res := scMul res res
    scInvLoop a i (if lMinus2.testBit i then scMul res a else res)

/-- Lines 113-133 (`Inv`). -/
def scInv (a : Bytes) : Bytes := scInvLoop a 256 scOne

/-- Lines 105-110 (`Div`). -/
def scDiv (a b : Bytes) : Bytes := scMul a (scInv b)

end Verif.Kyber
