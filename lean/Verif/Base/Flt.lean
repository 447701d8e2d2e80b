import Verif.Base.Bytes
import Mathlib.Algebra.Order.Floor.Ring
import Mathlib.Data.Rat.Floor

/-!
# float64 values

A float64 is NaN, an infinity or a finite rational.  All rationals are allowed (a superset of the
float64 values), so statements for all `Flt` cover all floats; existence statements must use
rationals that are floats.
-/

namespace Verif

/-- float64 values; `-0` is identified with `0`. -/
inductive Flt where
  | nan
  | posInf
  | negInf
  | fin (q : ℚ)
  deriving DecidableEq

namespace Flt

/-- The Go comparison `x <= 0.0`: false on NaN. -/
def le0 : Flt → Bool
  | nan => false
  | posInf => false
  | negInf => true
  | fin q => decide (q ≤ 0)

/-- Does `json.Marshal` accept the number? NaN and infinities are an `UnsupportedValueError`. -/
def marshals : Flt → Bool
  | fin _ => true
  | _ => false

end Flt

/-- Rounding to the nearest integer, halves to even (as `strconv.FormatFloat` rounds the exact
decimal expansion). -/
def roundHalfEven (q : ℚ) : ℤ :=
  let f := ⌊q⌋
  let d := q - f
  if d < 1 / 2 then f
  else if 1 / 2 < d then f + 1
  else if f % 2 = 0 then f else f + 1

/-- Left padding with zeroes to 12 digits. -/
def pad12 (b : Bytes) : Bytes := List.replicate (12 - b.length) 48 ++ b

/-- `strconv.FormatFloat(x, 'f', 12, 64)`. -/
def fmtF12 : Flt → Bytes
  | .nan => ascii "NaN"
  | .posInf => ascii "+Inf"
  | .negInf => ascii "-Inf"
  | .fin q =>
    let n := (roundHalfEven (|q| * 10 ^ 12)).toNat
    (if q < 0 then [45] else []) ++ natDec (n / 10 ^ 12) ++ 46 :: pad12 (natDec (n % 10 ^ 12))

end Verif
