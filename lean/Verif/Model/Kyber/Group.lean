import Verif.Model.Kyber.Field

/-!
# Model of `vendor/go.dedis.ch/kyber/v3/group/edwards25519/ge.go`, `const.go` and `point.go`

The functions store their results behind pointers; here they return them. Line numbers refer to
`ge.go` unless another file is named. Not modelled: the functions that the program never reaches
(`geScalarMultBase` and the tables of `const.go` from line 58 on, `ge_mult_vartime.go`, `Embed`,
`Pick`, `Data`, `HasSmallOrder`, `IsCanonical`): points are always multiplied with a point and
never in variable time.
-/

namespace Verif.Kyber

/-- `const.go:35-37`. -/
def feD : Fe :=
  ⟨-10913610, 13857413, -15372611, 6949391, 114729, -8787816, -6275908, -3247719, -18696448, -12055116⟩

/-- `const.go:39-41`. -/
def feD2 : Fe :=
  ⟨-21827239, -5839606, -30745221, 13898782, 229458, 15978800, -12551817, -6495438, 29715968, 9444199⟩

/-- `const.go:43-45`. -/
def feSqrtM1 : Fe :=
  ⟨-32595792, -7943725, 9377950, 3500415, 12389472, -272473, -25146209, -2005654, 326686, 11406482⟩

/-- Lines 16-18. -/
structure GeProj where
  X : Fe
  Y : Fe
  Z : Fe

/-- Lines 20-22. -/
structure GeExt where
  X : Fe
  Y : Fe
  Z : Fe
  T : Fe

/-- Lines 24-26. -/
structure GeCompl where
  X : Fe
  Y : Fe
  Z : Fe
  T : Fe

/-- Lines 32-34. -/
structure GeCached where
  yPlusX : Fe
  yMinusX : Fe
  Z : Fe
  T2d : Fe

/-- `const.go:51-56`. -/
def baseext : GeExt :=
  ⟨⟨25485296, 5318399, 8791791, -8299916, -14349720, 6939349, -3324311, -7717049, 7287234, -6577708⟩,
    ⟨-758052, -1832720, 13046421, -4857925, 6576754, 14371947, -13139572, 6845540, -2198883, -4003719⟩,
    ⟨-947565, 6097708, -469190, 10704810, -8556274, -15589498, -16424464, -16608899, 14028613, -5004649⟩,
    ⟨6966464, -2456167, 7033433, 6781840, 28785542, 12262365, -2659449, 13959020, -21013759, -5262166⟩⟩

/-- Lines 42-54. -/
def GeProj.double (p : GeProj) : GeCompl :=
  let rX := feSquare p.X
  let rZ := feSquare p.Y
  let rT := feSquare2 p.Z
  let rY := feAdd p.X p.Y
  let t0 := feSquare rY
  let rY := feAdd rZ rX
  let rZ := feSub rZ rX
  let rX := feSub t0 rY
  let rT := feSub rT rZ
  ⟨rX, rY, rZ, rT⟩

/-- Lines 66-71. -/
def GeExt.zero : GeExt := ⟨feZero, feOne, feOne, feZero⟩

/-- Lines 73-78. -/
def GeExt.neg (s : GeExt) : GeExt := ⟨feNeg s.X, s.Y, s.Z, feNeg s.T⟩

/-- Lines 86-91. -/
def GeExt.toCached (p : GeExt) : GeCached :=
  ⟨feAdd p.Y p.X, feSub p.Y p.X, p.Z, feMul p.T feD2⟩

/-- Lines 99-107. -/
def GeExt.toBytes (p : GeExt) : Bytes :=
  let recip := feInvert p.Z
  let x := feMul p.X recip
  let y := feMul p.Y recip
  let s := feToBytes y
  s.set 31 (s.getD 31 0 ^^^ (feIsNegative x <<< 7))

/-- Lines 117 and 119: `u = y^2 - 1`. -/
def geU (Y : Fe) : Fe := feSub (feSquare Y) feOne

/-- Lines 118 and 120: `v = d y^2 + 1`. -/
def geV (Y : Fe) : Fe := feAdd (feMul (feSquare Y) feD) feOne

/-- Lines 122-123: `v^3`. -/
def geV3 (v : Fe) : Fe := feMul (feSquare v) v

/-- Lines 124-130: `u v^3 (u v^7)^((q-5)/8)`. -/
def geCandidate (u v : Fe) : Fe :=
  feMul (feMul (fePow22523 (feMul (feMul (feSquare (geV3 v)) v) u)) (geV3 v)) u

/-- Lines 132-133: `v x^2`. -/
def geVxx (x v : Fe) : Fe := feMul (feSquare x) v

/-- Lines 132-141 for the candidate `x`; `none` when the result is `false`. -/
def geRoot (u v x : Fe) : Option Fe :=
  if feIsNonZero (feSub (geVxx x v) u) = 1 then
    if feIsNonZero (feAdd (geVxx x v) u) = 1 then none else some (feMul x feSqrtM1)
  else some x

/-- Lines 143-145. `feIsNegative` leaves `p.X` reduced (`feReduce`). -/
def geSigned (x : Fe) (top : UInt8) : Fe :=
  if feIsNegative x ≠ top then feNeg (feReduce x) else feReduce x

/-- Lines 109-149; `none` when the result is `false`. -/
def GeExt.fromBytes (s : Bytes) : Option GeExt :=
  if s.length = 32 then
    match geRoot (geU (feFromBytes s)) (geV (feFromBytes s))
        (geCandidate (geU (feFromBytes s)) (geV (feFromBytes s))) with
    | none => none
    | some x => some ⟨geSigned x (s.getD 31 0 >>> 7), feFromBytes s, feOne,
        feMul (geSigned x (s.getD 31 0 >>> 7)) (feFromBytes s)⟩
  else none

/-- Lines 161-165. -/
def GeCompl.toProj (c : GeCompl) : GeProj := ⟨feMul c.X c.T, feMul c.Y c.Z, feMul c.Z c.T⟩

/-- Lines 167-172. -/
def GeCompl.toExt (c : GeCompl) : GeExt :=
  ⟨feMul c.X c.T, feMul c.Y c.Z, feMul c.Z c.T, feMul c.X c.Y⟩

/-- Lines 180-194. -/
def GeCompl.add (p : GeExt) (q : GeCached) : GeCompl :=
  let cX := feAdd p.Y p.X
  let cY := feSub p.Y p.X
  let cZ := feMul cX q.yPlusX
  let cY := feMul cY q.yMinusX
  let cT := feMul q.T2d p.T
  let cX := feMul p.Z q.Z
  let t0 := feAdd cX cX
  ⟨feSub cZ cY, feAdd cZ cY, feAdd t0 cT, feSub t0 cT⟩

/-- Lines 196-210. -/
def GeCompl.sub (p : GeExt) (q : GeCached) : GeCompl :=
  let cX := feAdd p.Y p.X
  let cY := feSub p.Y p.X
  let cZ := feMul cX q.yMinusX
  let cY := feMul cY q.yPlusX
  let cT := feMul q.T2d p.T
  let cX := feMul p.Z q.Z
  let t0 := feAdd cX cX
  ⟨feSub cZ cY, feAdd cZ cY, feSub t0 cT, feAdd t0 cT⟩

/-- Lines 260-265. -/
def GeCached.zero : GeCached := ⟨feOne, feOne, feOne, feZero⟩

/-- Lines 268-273: the value of `r` afterwards. -/
def GeCached.cmove (r u : GeCached) (b : Int) : GeCached :=
  ⟨feCMove r.yPlusX u.yPlusX b, feCMove r.yMinusX u.yMinusX b, feCMove r.Z u.Z b,
    feCMove r.T2d u.T2d b⟩

/-- Lines 276-281. -/
def GeCached.neg (t : GeCached) : GeCached := ⟨t.yMinusX, t.yPlusX, t.Z, feNeg t.T2d⟩

/-- Lines 332-336; the operands are `int32`, the subtraction and the shift are those of `uint32`. -/
def equal (b c : Int) : Int :=
  let x := (BitVec.ofInt 32 (lxor32 b c)) - 1#32
  (x >>> 31).toInt

/-- Lines 339-341. -/
def negative (b : Int) : Int := land32 (b / 2 ^ 31) 1

/-- Lines 408-423; `Ai` has eight elements. -/
def selectCached (Ai : List GeCached) (b : Int) : GeCached :=
  let bNegative := negative b
  let bAbs := w32 (b - w32 (land32 (w32 (-bNegative)) b * 2))
  let c := (List.range 8).foldl
    (fun c i => c.cmove (Ai.getD i GeCached.zero) (equal bAbs ((i : Int) + 1))) GeCached.zero
  c.cmove c.neg bNegative

/-- Lines 440-444: the hexadecimal digits of `a`, as `int8`. -/
def nibbles : Bytes → List Int
  | [] => []
  | v :: t => ((v &&& 15).toNat : Int) :: (((v >>> 4) &&& 15).toNat : Int) :: nibbles t

/-- Lines 447-453: signed digits; the last one takes the carry without producing one. -/
def recode (carry : Int) : List Int → List Int
  | [] => []
  | [e] => [w8 (e + carry)]
  | e :: e' :: t =>
    let e := w8 (e + carry)
    let carry := w8 (e + 8) / 2 ^ 4
    w8 (e - w8 (carry * 2 ^ 4)) :: recode carry (e' :: t)

/-- Lines 457-463: the cached multiples `1 A` to `(n + 1) A`. -/
def multiples (A : GeExt) : Nat → List GeCached
  | 0 => [A.toCached]
  | n + 1 =>
    let Ai := multiples A n
    Ai ++ [(GeCompl.add A (Ai.getD n GeCached.zero)).toExt.toCached]

/-- Lines 473-480: four doublings. -/
def double4 (t : GeCompl) : GeCompl :=
  t.toProj.double.toProj.double.toProj.double.toProj.double

/-- Lines 430-489; `a` has 32 bytes. -/
def geScalarMult (a : Bytes) (A : GeExt) : GeExt :=
  let e := recode 0 (nibbles a)
  let Ai := multiples A 7
  let t := GeCompl.add GeExt.zero (selectCached Ai (e.getD 63 0))
  let t := (List.range 63).foldl
    (fun t k => GeCompl.add (double4 t).toExt (selectCached Ai (e.getD (62 - k) 0))) t
  t.toExt

/-! ## `point.go` -/

/-- `point.go:180-192`. -/
def ptAdd (p q : GeExt) : GeExt := (GeCompl.add p q.toCached).toExt

/-- `point.go:194-206`. -/
def ptSub (p q : GeExt) : GeExt := (GeCompl.sub p q.toCached).toExt

/-- `point.go:216-231`. -/
def ptMul (a : Bytes) (p : GeExt) : GeExt := geScalarMult a p

/-- `point.go:71-82`. -/
def ptEqual (p q : GeExt) : Bool := p.toBytes == q.toBytes

end Verif.Kyber
