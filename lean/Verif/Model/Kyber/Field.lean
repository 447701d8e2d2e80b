import Verif.Model.Sig

/-!
# Model of `vendor/go.dedis.ch/kyber/v3/group/edwards25519/fe.go`

Machine integers are `Int`s that are wrapped after every operation that could leave their range
(`w32`, `w64`, `w8`); in sums of several terms once, at the end, which is the same. Shifts to the right
of signed integers round down, as `/` does. Line numbers refer to `fe.go`.
-/

namespace Verif.Kyber

/-- Conversion to `int8`. -/
def w8 (x : Int) : Int := Int.bmod x (2 ^ 8)

/-- Conversion to `int32`. -/
def w32 (x : Int) : Int := Int.bmod x (2 ^ 32)

/-- Conversion to `int64`. -/
def w64 (x : Int) : Int := Int.bmod x (2 ^ 64)

/-- Bitwise or of `int32`. -/
def lor32 (a b : Int) : Int := (BitVec.ofInt 32 a ||| BitVec.ofInt 32 b).toInt

/-- Bitwise and of `int32`. -/
def land32 (a b : Int) : Int := (BitVec.ofInt 32 a &&& BitVec.ofInt 32 b).toInt

/-- Bitwise exclusive or of `int32`. -/
def lxor32 (a b : Int) : Int := (BitVec.ofInt 32 a ^^^ BitVec.ofInt 32 b).toInt

/-- Conversion to `byte`. -/
def byteOf (x : Int) : UInt8 := UInt8.ofNat (x % 256).toNat

/-- `in[i]`; all slices indexed here have 32 bytes. -/
def at' (s : Bytes) (i : Nat) : Nat := (s.getD i 0).toNat

/-- Lines 64-69, on `s[i:]`. -/
def load3 (s : Bytes) (i : Nat) : Int :=
  ((at' s i ||| at' s (i + 1) <<< 8 ||| at' s (i + 2) <<< 16 : Nat) : Int)

/-- Lines 71-77, on `s[i:]`. -/
def load4 (s : Bytes) (i : Nat) : Int :=
  ((at' s i ||| at' s (i + 1) <<< 8 ||| at' s (i + 2) <<< 16 ||| at' s (i + 3) <<< 24 : Nat) : Int)

/-- Lines 14-18: `fieldElement`, ten `int32`. -/
structure Fe where
  l0 : Int
  l1 : Int
  l2 : Int
  l3 : Int
  l4 : Int
  l5 : Int
  l6 : Int
  l7 : Int
  l8 : Int
  l9 : Int
  deriving DecidableEq

/-- A function applied to the limbs of two elements. -/
def Fe.zip (op : Int → Int → Int) (a b : Fe) : Fe :=
  ⟨op a.l0 b.l0, op a.l1 b.l1, op a.l2 b.l2, op a.l3 b.l3, op a.l4 b.l4, op a.l5 b.l5, op a.l6 b.l6,
    op a.l7 b.l7, op a.l8 b.l8, op a.l9 b.l9⟩

/-- Lines 20-24. -/
def feZero : Fe := ⟨0, 0, 0, 0, 0, 0, 0, 0, 0, 0⟩

/-- Lines 26-29. -/
def feOne : Fe := ⟨1, 0, 0, 0, 0, 0, 0, 0, 0, 0⟩

/-- Lines 31-35. -/
def feAdd (a b : Fe) : Fe := Fe.zip (fun x y => w32 (x + y)) a b

/-- Lines 37-41. -/
def feSub (a b : Fe) : Fe := Fe.zip (fun x y => w32 (x - y)) a b

/-- Lines 53-62: the value of `f` afterwards; `b` is 0 or 1. -/
def feCMove (f g : Fe) (b : Int) : Fe :=
  Fe.zip (fun x y => lxor32 x (land32 (w32 (-b)) (lxor32 x y))) f g

/-- Lines 274-278. -/
def feNeg (f : Fe) : Fe := Fe.zip (fun x _ => w32 (-x)) f f

/-! ## Carries -/

/-- `carry = (h + (1 << 25)) >> 26; next += carry; h -= carry << 26`, in `int64`. -/
def round26 (h next : Int) : Int × Int :=
  let carry := w64 (h + 2 ^ 25) / 2 ^ 26
  (w64 (h - w64 (carry * 2 ^ 26)), w64 (next + carry))

/-- `carry = (h + (1 << 24)) >> 25; next += carry; h -= carry << 25`, in `int64`. -/
def round25 (h next : Int) : Int × Int :=
  let carry := w64 (h + 2 ^ 24) / 2 ^ 25
  (w64 (h - w64 (carry * 2 ^ 25)), w64 (next + carry))

/-- `carry = (h9 + (1 << 24)) >> 25; h0 += carry * 19; h9 -= carry << 25`, in `int64`: the new values
of `h9` and `h0`. -/
def roundTop (h9 h0 : Int) : Int × Int :=
  let carry := w64 (h9 + 2 ^ 24) / 2 ^ 25
  (w64 (h9 - w64 (carry * 2 ^ 25)), w64 (h0 + w64 (carry * 19)))

/-- Lines 461-536, the same as 638-690 and 805-857: carries and conversion to `int32`. -/
def feCarry (h0 h1 h2 h3 h4 h5 h6 h7 h8 h9 : Int) : Fe :=
  let (h0, h1) := round26 h0 h1
  let (h4, h5) := round26 h4 h5
  let (h1, h2) := round25 h1 h2
  let (h5, h6) := round25 h5 h6
  let (h2, h3) := round26 h2 h3
  let (h6, h7) := round26 h6 h7
  let (h3, h4) := round25 h3 h4
  let (h7, h8) := round25 h7 h8
  let (h4, h5) := round26 h4 h5
  let (h8, h9) := round26 h8 h9
  let (h9, h0) := roundTop h9 h0
  let (h0, h1) := round26 h0 h1
  ⟨w32 h0, w32 h1, w32 h2, w32 h3, w32 h4, w32 h5, w32 h6, w32 h7, w32 h8, w32 h9⟩

/-- Lines 79-134. -/
def feFromBytes (src : Bytes) : Fe :=
  let h0 := load4 src 0
  let h1 := w64 (load3 src 4 * 2 ^ 6)
  let h2 := w64 (load3 src 7 * 2 ^ 5)
  let h3 := w64 (load3 src 10 * 2 ^ 3)
  let h4 := w64 (load3 src 13 * 2 ^ 2)
  let h5 := load4 src 16
  let h6 := w64 (load3 src 20 * 2 ^ 7)
  let h7 := w64 (load3 src 23 * 2 ^ 5)
  let h8 := w64 (load3 src 26 * 2 ^ 4)
  let h9 := w64 (((load3 src 29).toNat &&& 8388607 : Nat) * 2 ^ 2)
  let (h9, h0) := roundTop h9 h0
  let (h1, h2) := round25 h1 h2
  let (h3, h4) := round25 h3 h4
  let (h5, h6) := round25 h5 h6
  let (h7, h8) := round25 h7 h8
  let (h0, h1) := round26 h0 h1
  let (h2, h3) := round26 h2 h3
  let (h4, h5) := round26 h4 h5
  let (h6, h7) := round26 h6 h7
  let (h8, h9) := round26 h8 h9
  ⟨w32 h0, w32 h1, w32 h2, w32 h3, w32 h4, w32 h5, w32 h6, w32 h7, w32 h8, w32 h9⟩

/-- `carry = h >> 26; next += carry; h -= carry << 26`, in `int32`. -/
def floor26 (h next : Int) : Int × Int :=
  let carry := h / 2 ^ 26
  (w32 (h - w32 (carry * 2 ^ 26)), w32 (next + carry))

/-- `carry = h >> 25; next += carry; h -= carry << 25`, in `int32`. -/
def floor25 (h next : Int) : Int × Int :=
  let carry := h / 2 ^ 25
  (w32 (h - w32 (carry * 2 ^ 25)), w32 (next + carry))

/-- Lines 162-172: the quotient by `2^255 - 19`. -/
def feQuotient (h : Fe) : Int :=
  let q := w32 (w32 (19 * h.l9) + 2 ^ 24) / 2 ^ 25
  let q := w32 (h.l0 + q) / 2 ^ 26
  let q := w32 (h.l1 + q) / 2 ^ 25
  let q := w32 (h.l2 + q) / 2 ^ 26
  let q := w32 (h.l3 + q) / 2 ^ 25
  let q := w32 (h.l4 + q) / 2 ^ 26
  let q := w32 (h.l5 + q) / 2 ^ 25
  let q := w32 (h.l6 + q) / 2 ^ 26
  let q := w32 (h.l7 + q) / 2 ^ 25
  let q := w32 (h.l8 + q) / 2 ^ 26
  w32 (h.l9 + q) / 2 ^ 25

/-- Lines 174-206: the limbs after the reduction. The argument of `feToBytes` is a pointer, so the
caller's element has these limbs afterwards. -/
def feReduce (h : Fe) : Fe :=
  let q := feQuotient h
  let h0 := w32 (h.l0 + w32 (19 * q))
  let (h0, h1) := floor26 h0 h.l1
  let (h1, h2) := floor25 h1 h.l2
  let (h2, h3) := floor26 h2 h.l3
  let (h3, h4) := floor25 h3 h.l4
  let (h4, h5) := floor26 h4 h.l5
  let (h5, h6) := floor25 h5 h.l6
  let (h6, h7) := floor26 h6 h.l7
  let (h7, h8) := floor25 h7 h.l8
  let (h8, h9) := floor26 h8 h.l9
  let carry9 := h9 / 2 ^ 25
  let h9 := w32 (h9 - w32 (carry9 * 2 ^ 25))
  ⟨h0, h1, h2, h3, h4, h5, h6, h7, h8, h9⟩

/-- Lines 214-245: the bytes of the reduced limbs. -/
def fePack (h : Fe) : Bytes :=
  let h0 := h.l0
  let h1 := h.l1
  let h2 := h.l2
  let h3 := h.l3
  let h4 := h.l4
  let h5 := h.l5
  let h6 := h.l6
  let h7 := h.l7
  let h8 := h.l8
  let h9 := h.l9
  [ byteOf (h0 / 2 ^ 0), byteOf (h0 / 2 ^ 8),
      byteOf (h0 / 2 ^ 16), byteOf (lor32 (h0 / 2 ^ 24) (w32 (h1 * 2 ^ 2))),
      byteOf (h1 / 2 ^ 6), byteOf (h1 / 2 ^ 14),
      byteOf (lor32 (h1 / 2 ^ 22) (w32 (h2 * 2 ^ 3))), byteOf (h2 / 2 ^ 5),
      byteOf (h2 / 2 ^ 13), byteOf (lor32 (h2 / 2 ^ 21) (w32 (h3 * 2 ^ 5))),
      byteOf (h3 / 2 ^ 3), byteOf (h3 / 2 ^ 11),
      byteOf (lor32 (h3 / 2 ^ 19) (w32 (h4 * 2 ^ 6))), byteOf (h4 / 2 ^ 2),
      byteOf (h4 / 2 ^ 10), byteOf (h4 / 2 ^ 18),
      byteOf (h5 / 2 ^ 0), byteOf (h5 / 2 ^ 8),
      byteOf (h5 / 2 ^ 16), byteOf (lor32 (h5 / 2 ^ 24) (w32 (h6 * 2 ^ 1))),
      byteOf (h6 / 2 ^ 7), byteOf (h6 / 2 ^ 15),
      byteOf (lor32 (h6 / 2 ^ 23) (w32 (h7 * 2 ^ 3))), byteOf (h7 / 2 ^ 5),
      byteOf (h7 / 2 ^ 13), byteOf (lor32 (h7 / 2 ^ 21) (w32 (h8 * 2 ^ 4))),
      byteOf (h8 / 2 ^ 4), byteOf (h8 / 2 ^ 12),
      byteOf (lor32 (h8 / 2 ^ 20) (w32 (h9 * 2 ^ 6))), byteOf (h9 / 2 ^ 2),
      byteOf (h9 / 2 ^ 10), byteOf (h9 / 2 ^ 18) ]

/-- Lines 159-246. -/
def feToBytes (h : Fe) : Bytes := fePack (feReduce h)

/-- Lines 248-252: the result; the argument is reduced in place, see `feReduce`. -/
def feIsNegative (f : Fe) : UInt8 := (feToBytes f).getD 0 0 &&& 1

/-- Lines 254-265; the argument is reduced in place, see `feReduce`. -/
def feIsNonZero (f : Fe) : UInt8 :=
  let x := (feToBytes f).foldl (fun x b => x ||| b) 0
  let x := x ||| x >>> 4
  let x := x ||| x >>> 2
  let x := x ||| x >>> 1
  x &&& 1

/-! ## Products -/

/-- Lines 307-538. -/
def feMul (f g : Fe) : Fe :=
  let f0 := f.l0
  let f1 := f.l1
  let f2 := f.l2
  let f3 := f.l3
  let f4 := f.l4
  let f5 := f.l5
  let f6 := f.l6
  let f7 := f.l7
  let f8 := f.l8
  let f9 := f.l9
  let g0 := g.l0
  let g1 := g.l1
  let g2 := g.l2
  let g3 := g.l3
  let g4 := g.l4
  let g5 := g.l5
  let g6 := g.l6
  let g7 := g.l7
  let g8 := g.l8
  let g9 := g.l9
  let g1_19 := w32 (19 * g1)
  let g2_19 := w32 (19 * g2)
  let g3_19 := w32 (19 * g3)
  let g4_19 := w32 (19 * g4)
  let g5_19 := w32 (19 * g5)
  let g6_19 := w32 (19 * g6)
  let g7_19 := w32 (19 * g7)
  let g8_19 := w32 (19 * g8)
  let g9_19 := w32 (19 * g9)
  let f1_2 := w32 (2 * f1)
  let f3_2 := w32 (2 * f3)
  let f5_2 := w32 (2 * f5)
  let f7_2 := w32 (2 * f7)
  let f9_2 := w32 (2 * f9)
  let f0g0 := w64 (f0 * g0)
  let f0g1 := w64 (f0 * g1)
  let f0g2 := w64 (f0 * g2)
  let f0g3 := w64 (f0 * g3)
  let f0g4 := w64 (f0 * g4)
  let f0g5 := w64 (f0 * g5)
  let f0g6 := w64 (f0 * g6)
  let f0g7 := w64 (f0 * g7)
  let f0g8 := w64 (f0 * g8)
  let f0g9 := w64 (f0 * g9)
  let f1g0 := w64 (f1 * g0)
  let f1g1_2 := w64 (f1_2 * g1)
  let f1g2 := w64 (f1 * g2)
  let f1g3_2 := w64 (f1_2 * g3)
  let f1g4 := w64 (f1 * g4)
  let f1g5_2 := w64 (f1_2 * g5)
  let f1g6 := w64 (f1 * g6)
  let f1g7_2 := w64 (f1_2 * g7)
  let f1g8 := w64 (f1 * g8)
  let f1g9_38 := w64 (f1_2 * g9_19)
  let f2g0 := w64 (f2 * g0)
  let f2g1 := w64 (f2 * g1)
  let f2g2 := w64 (f2 * g2)
  let f2g3 := w64 (f2 * g3)
  let f2g4 := w64 (f2 * g4)
  let f2g5 := w64 (f2 * g5)
  let f2g6 := w64 (f2 * g6)
  let f2g7 := w64 (f2 * g7)
  let f2g8_19 := w64 (f2 * g8_19)
  let f2g9_19 := w64 (f2 * g9_19)
  let f3g0 := w64 (f3 * g0)
  let f3g1_2 := w64 (f3_2 * g1)
  let f3g2 := w64 (f3 * g2)
  let f3g3_2 := w64 (f3_2 * g3)
  let f3g4 := w64 (f3 * g4)
  let f3g5_2 := w64 (f3_2 * g5)
  let f3g6 := w64 (f3 * g6)
  let f3g7_38 := w64 (f3_2 * g7_19)
  let f3g8_19 := w64 (f3 * g8_19)
  let f3g9_38 := w64 (f3_2 * g9_19)
  let f4g0 := w64 (f4 * g0)
  let f4g1 := w64 (f4 * g1)
  let f4g2 := w64 (f4 * g2)
  let f4g3 := w64 (f4 * g3)
  let f4g4 := w64 (f4 * g4)
  let f4g5 := w64 (f4 * g5)
  let f4g6_19 := w64 (f4 * g6_19)
  let f4g7_19 := w64 (f4 * g7_19)
  let f4g8_19 := w64 (f4 * g8_19)
  let f4g9_19 := w64 (f4 * g9_19)
  let f5g0 := w64 (f5 * g0)
  let f5g1_2 := w64 (f5_2 * g1)
  let f5g2 := w64 (f5 * g2)
  let f5g3_2 := w64 (f5_2 * g3)
  let f5g4 := w64 (f5 * g4)
  let f5g5_38 := w64 (f5_2 * g5_19)
  let f5g6_19 := w64 (f5 * g6_19)
  let f5g7_38 := w64 (f5_2 * g7_19)
  let f5g8_19 := w64 (f5 * g8_19)
  let f5g9_38 := w64 (f5_2 * g9_19)
  let f6g0 := w64 (f6 * g0)
  let f6g1 := w64 (f6 * g1)
  let f6g2 := w64 (f6 * g2)
  let f6g3 := w64 (f6 * g3)
  let f6g4_19 := w64 (f6 * g4_19)
  let f6g5_19 := w64 (f6 * g5_19)
  let f6g6_19 := w64 (f6 * g6_19)
  let f6g7_19 := w64 (f6 * g7_19)
  let f6g8_19 := w64 (f6 * g8_19)
  let f6g9_19 := w64 (f6 * g9_19)
  let f7g0 := w64 (f7 * g0)
  let f7g1_2 := w64 (f7_2 * g1)
  let f7g2 := w64 (f7 * g2)
  let f7g3_38 := w64 (f7_2 * g3_19)
  let f7g4_19 := w64 (f7 * g4_19)
  let f7g5_38 := w64 (f7_2 * g5_19)
  let f7g6_19 := w64 (f7 * g6_19)
  let f7g7_38 := w64 (f7_2 * g7_19)
  let f7g8_19 := w64 (f7 * g8_19)
  let f7g9_38 := w64 (f7_2 * g9_19)
  let f8g0 := w64 (f8 * g0)
  let f8g1 := w64 (f8 * g1)
  let f8g2_19 := w64 (f8 * g2_19)
  let f8g3_19 := w64 (f8 * g3_19)
  let f8g4_19 := w64 (f8 * g4_19)
  let f8g5_19 := w64 (f8 * g5_19)
  let f8g6_19 := w64 (f8 * g6_19)
  let f8g7_19 := w64 (f8 * g7_19)
  let f8g8_19 := w64 (f8 * g8_19)
  let f8g9_19 := w64 (f8 * g9_19)
  let f9g0 := w64 (f9 * g0)
  let f9g1_38 := w64 (f9_2 * g1_19)
  let f9g2_19 := w64 (f9 * g2_19)
  let f9g3_38 := w64 (f9_2 * g3_19)
  let f9g4_19 := w64 (f9 * g4_19)
  let f9g5_38 := w64 (f9_2 * g5_19)
  let f9g6_19 := w64 (f9 * g6_19)
  let f9g7_38 := w64 (f9_2 * g7_19)
  let f9g8_19 := w64 (f9 * g8_19)
  let f9g9_38 := w64 (f9_2 * g9_19)
  let h0 := w64 (f0g0 + f1g9_38 + f2g8_19 + f3g7_38 + f4g6_19 + f5g5_38 + f6g4_19 + f7g3_38 + f8g2_19 + f9g1_38)
  let h1 := w64 (f0g1 + f1g0 + f2g9_19 + f3g8_19 + f4g7_19 + f5g6_19 + f6g5_19 + f7g4_19 + f8g3_19 + f9g2_19)
  let h2 := w64 (f0g2 + f1g1_2 + f2g0 + f3g9_38 + f4g8_19 + f5g7_38 + f6g6_19 + f7g5_38 + f8g4_19 + f9g3_38)
  let h3 := w64 (f0g3 + f1g2 + f2g1 + f3g0 + f4g9_19 + f5g8_19 + f6g7_19 + f7g6_19 + f8g5_19 + f9g4_19)
  let h4 := w64 (f0g4 + f1g3_2 + f2g2 + f3g1_2 + f4g0 + f5g9_38 + f6g8_19 + f7g7_38 + f8g6_19 + f9g5_38)
  let h5 := w64 (f0g5 + f1g4 + f2g3 + f3g2 + f4g1 + f5g0 + f6g9_19 + f7g8_19 + f8g7_19 + f9g6_19)
  let h6 := w64 (f0g6 + f1g5_2 + f2g4 + f3g3_2 + f4g2 + f5g1_2 + f6g0 + f7g9_38 + f8g8_19 + f9g7_38)
  let h7 := w64 (f0g7 + f1g6 + f2g5 + f3g4 + f4g3 + f5g2 + f6g1 + f7g0 + f8g9_19 + f9g8_19)
  let h8 := w64 (f0g8 + f1g7_2 + f2g6 + f3g5_2 + f4g4 + f5g3_2 + f6g2 + f7g1_2 + f8g0 + f9g9_38)
  let h9 := w64 (f0g9 + f1g8 + f2g7 + f3g6 + f4g5 + f5g4 + f6g3 + f7g2 + f8g1 + f9g0)
  feCarry h0 h1 h2 h3 h4 h5 h6 h7 h8 h9

/-- Lines 547-691. -/
def feSquare (f : Fe) : Fe :=
  let f0 := f.l0
  let f1 := f.l1
  let f2 := f.l2
  let f3 := f.l3
  let f4 := f.l4
  let f5 := f.l5
  let f6 := f.l6
  let f7 := f.l7
  let f8 := f.l8
  let f9 := f.l9
  let f0_2 := w32 (2 * f0)
  let f1_2 := w32 (2 * f1)
  let f2_2 := w32 (2 * f2)
  let f3_2 := w32 (2 * f3)
  let f4_2 := w32 (2 * f4)
  let f5_2 := w32 (2 * f5)
  let f6_2 := w32 (2 * f6)
  let f7_2 := w32 (2 * f7)
  let f5_38 := w32 (38 * f5)
  let f6_19 := w32 (19 * f6)
  let f7_38 := w32 (38 * f7)
  let f8_19 := w32 (19 * f8)
  let f9_38 := w32 (38 * f9)
  let f0f0 := w64 (f0 * f0)
  let f0f1_2 := w64 (f0_2 * f1)
  let f0f2_2 := w64 (f0_2 * f2)
  let f0f3_2 := w64 (f0_2 * f3)
  let f0f4_2 := w64 (f0_2 * f4)
  let f0f5_2 := w64 (f0_2 * f5)
  let f0f6_2 := w64 (f0_2 * f6)
  let f0f7_2 := w64 (f0_2 * f7)
  let f0f8_2 := w64 (f0_2 * f8)
  let f0f9_2 := w64 (f0_2 * f9)
  let f1f1_2 := w64 (f1_2 * f1)
  let f1f2_2 := w64 (f1_2 * f2)
  let f1f3_4 := w64 (f1_2 * f3_2)
  let f1f4_2 := w64 (f1_2 * f4)
  let f1f5_4 := w64 (f1_2 * f5_2)
  let f1f6_2 := w64 (f1_2 * f6)
  let f1f7_4 := w64 (f1_2 * f7_2)
  let f1f8_2 := w64 (f1_2 * f8)
  let f1f9_76 := w64 (f1_2 * f9_38)
  let f2f2 := w64 (f2 * f2)
  let f2f3_2 := w64 (f2_2 * f3)
  let f2f4_2 := w64 (f2_2 * f4)
  let f2f5_2 := w64 (f2_2 * f5)
  let f2f6_2 := w64 (f2_2 * f6)
  let f2f7_2 := w64 (f2_2 * f7)
  let f2f8_38 := w64 (f2_2 * f8_19)
  let f2f9_38 := w64 (f2 * f9_38)
  let f3f3_2 := w64 (f3_2 * f3)
  let f3f4_2 := w64 (f3_2 * f4)
  let f3f5_4 := w64 (f3_2 * f5_2)
  let f3f6_2 := w64 (f3_2 * f6)
  let f3f7_76 := w64 (f3_2 * f7_38)
  let f3f8_38 := w64 (f3_2 * f8_19)
  let f3f9_76 := w64 (f3_2 * f9_38)
  let f4f4 := w64 (f4 * f4)
  let f4f5_2 := w64 (f4_2 * f5)
  let f4f6_38 := w64 (f4_2 * f6_19)
  let f4f7_38 := w64 (f4 * f7_38)
  let f4f8_38 := w64 (f4_2 * f8_19)
  let f4f9_38 := w64 (f4 * f9_38)
  let f5f5_38 := w64 (f5 * f5_38)
  let f5f6_38 := w64 (f5_2 * f6_19)
  let f5f7_76 := w64 (f5_2 * f7_38)
  let f5f8_38 := w64 (f5_2 * f8_19)
  let f5f9_76 := w64 (f5_2 * f9_38)
  let f6f6_19 := w64 (f6 * f6_19)
  let f6f7_38 := w64 (f6 * f7_38)
  let f6f8_38 := w64 (f6_2 * f8_19)
  let f6f9_38 := w64 (f6 * f9_38)
  let f7f7_38 := w64 (f7 * f7_38)
  let f7f8_38 := w64 (f7_2 * f8_19)
  let f7f9_76 := w64 (f7_2 * f9_38)
  let f8f8_19 := w64 (f8 * f8_19)
  let f8f9_38 := w64 (f8 * f9_38)
  let f9f9_38 := w64 (f9 * f9_38)
  let h0 := w64 (f0f0 + f1f9_76 + f2f8_38 + f3f7_76 + f4f6_38 + f5f5_38)
  let h1 := w64 (f0f1_2 + f2f9_38 + f3f8_38 + f4f7_38 + f5f6_38)
  let h2 := w64 (f0f2_2 + f1f1_2 + f3f9_76 + f4f8_38 + f5f7_76 + f6f6_19)
  let h3 := w64 (f0f3_2 + f1f2_2 + f4f9_38 + f5f8_38 + f6f7_38)
  let h4 := w64 (f0f4_2 + f1f3_4 + f2f2 + f5f9_76 + f6f8_38 + f7f7_38)
  let h5 := w64 (f0f5_2 + f1f4_2 + f2f3_2 + f6f9_38 + f7f8_38)
  let h6 := w64 (f0f6_2 + f1f5_4 + f2f4_2 + f3f3_2 + f7f9_76 + f8f8_19)
  let h7 := w64 (f0f7_2 + f1f6_2 + f2f5_2 + f3f4_2 + f8f9_38)
  let h8 := w64 (f0f8_2 + f1f7_4 + f2f6_2 + f3f5_4 + f4f4 + f9f9_38)
  let h9 := w64 (f0f9_2 + f1f8_2 + f2f7_2 + f3f6_2 + f4f5_2)
  feCarry h0 h1 h2 h3 h4 h5 h6 h7 h8 h9

/-- Lines 703-858. -/
def feSquare2 (f : Fe) : Fe :=
  let f0 := f.l0
  let f1 := f.l1
  let f2 := f.l2
  let f3 := f.l3
  let f4 := f.l4
  let f5 := f.l5
  let f6 := f.l6
  let f7 := f.l7
  let f8 := f.l8
  let f9 := f.l9
  let f0_2 := w32 (2 * f0)
  let f1_2 := w32 (2 * f1)
  let f2_2 := w32 (2 * f2)
  let f3_2 := w32 (2 * f3)
  let f4_2 := w32 (2 * f4)
  let f5_2 := w32 (2 * f5)
  let f6_2 := w32 (2 * f6)
  let f7_2 := w32 (2 * f7)
  let f5_38 := w32 (38 * f5)
  let f6_19 := w32 (19 * f6)
  let f7_38 := w32 (38 * f7)
  let f8_19 := w32 (19 * f8)
  let f9_38 := w32 (38 * f9)
  let f0f0 := w64 (f0 * f0)
  let f0f1_2 := w64 (f0_2 * f1)
  let f0f2_2 := w64 (f0_2 * f2)
  let f0f3_2 := w64 (f0_2 * f3)
  let f0f4_2 := w64 (f0_2 * f4)
  let f0f5_2 := w64 (f0_2 * f5)
  let f0f6_2 := w64 (f0_2 * f6)
  let f0f7_2 := w64 (f0_2 * f7)
  let f0f8_2 := w64 (f0_2 * f8)
  let f0f9_2 := w64 (f0_2 * f9)
  let f1f1_2 := w64 (f1_2 * f1)
  let f1f2_2 := w64 (f1_2 * f2)
  let f1f3_4 := w64 (f1_2 * f3_2)
  let f1f4_2 := w64 (f1_2 * f4)
  let f1f5_4 := w64 (f1_2 * f5_2)
  let f1f6_2 := w64 (f1_2 * f6)
  let f1f7_4 := w64 (f1_2 * f7_2)
  let f1f8_2 := w64 (f1_2 * f8)
  let f1f9_76 := w64 (f1_2 * f9_38)
  let f2f2 := w64 (f2 * f2)
  let f2f3_2 := w64 (f2_2 * f3)
  let f2f4_2 := w64 (f2_2 * f4)
  let f2f5_2 := w64 (f2_2 * f5)
  let f2f6_2 := w64 (f2_2 * f6)
  let f2f7_2 := w64 (f2_2 * f7)
  let f2f8_38 := w64 (f2_2 * f8_19)
  let f2f9_38 := w64 (f2 * f9_38)
  let f3f3_2 := w64 (f3_2 * f3)
  let f3f4_2 := w64 (f3_2 * f4)
  let f3f5_4 := w64 (f3_2 * f5_2)
  let f3f6_2 := w64 (f3_2 * f6)
  let f3f7_76 := w64 (f3_2 * f7_38)
  let f3f8_38 := w64 (f3_2 * f8_19)
  let f3f9_76 := w64 (f3_2 * f9_38)
  let f4f4 := w64 (f4 * f4)
  let f4f5_2 := w64 (f4_2 * f5)
  let f4f6_38 := w64 (f4_2 * f6_19)
  let f4f7_38 := w64 (f4 * f7_38)
  let f4f8_38 := w64 (f4_2 * f8_19)
  let f4f9_38 := w64 (f4 * f9_38)
  let f5f5_38 := w64 (f5 * f5_38)
  let f5f6_38 := w64 (f5_2 * f6_19)
  let f5f7_76 := w64 (f5_2 * f7_38)
  let f5f8_38 := w64 (f5_2 * f8_19)
  let f5f9_76 := w64 (f5_2 * f9_38)
  let f6f6_19 := w64 (f6 * f6_19)
  let f6f7_38 := w64 (f6 * f7_38)
  let f6f8_38 := w64 (f6_2 * f8_19)
  let f6f9_38 := w64 (f6 * f9_38)
  let f7f7_38 := w64 (f7 * f7_38)
  let f7f8_38 := w64 (f7_2 * f8_19)
  let f7f9_76 := w64 (f7_2 * f9_38)
  let f8f8_19 := w64 (f8 * f8_19)
  let f8f9_38 := w64 (f8 * f9_38)
  let f9f9_38 := w64 (f9 * f9_38)
  let h0 := w64 (f0f0 + f1f9_76 + f2f8_38 + f3f7_76 + f4f6_38 + f5f5_38)
  let h1 := w64 (f0f1_2 + f2f9_38 + f3f8_38 + f4f7_38 + f5f6_38)
  let h2 := w64 (f0f2_2 + f1f1_2 + f3f9_76 + f4f8_38 + f5f7_76 + f6f6_19)
  let h3 := w64 (f0f3_2 + f1f2_2 + f4f9_38 + f5f8_38 + f6f7_38)
  let h4 := w64 (f0f4_2 + f1f3_4 + f2f2 + f5f9_76 + f6f8_38 + f7f7_38)
  let h5 := w64 (f0f5_2 + f1f4_2 + f2f3_2 + f6f9_38 + f7f8_38)
  let h6 := w64 (f0f6_2 + f1f5_4 + f2f4_2 + f3f3_2 + f7f9_76 + f8f8_19)
  let h7 := w64 (f0f7_2 + f1f6_2 + f2f5_2 + f3f4_2 + f8f9_38)
  let h8 := w64 (f0f8_2 + f1f7_4 + f2f6_2 + f3f5_4 + f4f4 + f9f9_38)
  let h9 := w64 (f0f9_2 + f1f8_2 + f2f7_2 + f3f6_2 + f4f5_2)
  let h0 := w64 (h0 + h0)
  let h1 := w64 (h1 + h1)
  let h2 := w64 (h2 + h2)
  let h3 := w64 (h3 + h3)
  let h4 := w64 (h4 + h4)
  let h5 := w64 (h5 + h5)
  let h6 := w64 (h6 + h6)
  let h7 := w64 (h7 + h7)
  let h8 := w64 (h8 + h8)
  let h9 := w64 (h9 + h9)
  feCarry h0 h1 h2 h3 h4 h5 h6 h7 h8 h9

/-- `n` squarings: `feSquare(&t, &f)` and then `n - 1` times `feSquare(&t, &t)`, `n > 0`. -/
def feSquares : Nat → Fe → Fe
  | 0, f => f
  | n + 1, f => feSquares n (feSquare f)

/-- Lines 860-913. -/
def feInvert (z : Fe) : Fe :=
  let t0 := feSquare z
  let t1 := feSquares 2 t0
  let t1 := feMul z t1
  let t0 := feMul t0 t1
  let t2 := feSquare t0
  let t1 := feMul t1 t2
  let t2 := feSquares 5 t1
  let t1 := feMul t2 t1
  let t2 := feSquares 10 t1
  let t2 := feMul t2 t1
  let t3 := feSquares 20 t2
  let t2 := feMul t3 t2
  let t2 := feSquares 10 t2
  let t1 := feMul t2 t1
  let t2 := feSquares 50 t1
  let t2 := feMul t2 t1
  let t3 := feSquares 100 t2
  let t2 := feMul t3 t2
  let t2 := feSquares 50 t2
  let t1 := feMul t2 t1
  let t1 := feSquares 5 t1
  feMul t1 t0

/-- Lines 915-974. -/
def fePow22523 (z : Fe) : Fe :=
  let t0 := feSquares 1 z
  let t1 := feSquares 2 t0
  let t1 := feMul z t1
  let t0 := feMul t0 t1
  let t0 := feSquares 1 t0
  let t0 := feMul t1 t0
  let t1 := feSquares 5 t0
  let t0 := feMul t1 t0
  let t1 := feSquares 10 t0
  let t1 := feMul t1 t0
  let t2 := feSquares 20 t1
  let t1 := feMul t2 t1
  let t1 := feSquares 10 t1
  let t0 := feMul t1 t0
  let t1 := feSquares 50 t0
  let t1 := feMul t1 t0
  let t2 := feSquares 100 t1
  let t1 := feMul t2 t1
  let t1 := feSquares 50 t1
  let t0 := feMul t1 t0
  let t0 := feSquares 2 t0
  feMul t0 z

end Verif.Kyber
