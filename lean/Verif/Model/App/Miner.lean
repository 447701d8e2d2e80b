import Verif.Base.FltArith
import Verif.Model.Hash
import Verif.Base.Flt

/-!
# Model of `application/miners/helper.go`

The recursion of `mineRecursively` has no bound, so the model functions take the number of stack
frames that are available; running out of them is a stack overflow (in Go fatal, not a panic).
Running out of memory is not modelled.
-/

namespace Verif

/-- `application/miners/sdk.go:4`. -/
def maxMiningValue : Nat := 2147483647

/-- `application/miners/sdk.go:7`. -/
def maxMiningTries : Nat := 2147483647

/-- `application/miners/helper.go:30-48` (`prefix`): `int(difficulty)` zero bytes; none when the
conversion is negative. `binary.Write` into a buffer does not fail. -/
def miningPrefix (difficulty : UInt64) : Bytes := List.replicate (toInt difficulty).toNat 0

/-- `bytes.HasPrefix`. -/
def hasPrefix (data pre : Bytes) : Bool := pre.isPrefixOf data

/-- `application/miners/helper.go:84-97`: the loop over the last number; `n` iterations are left.
`test i` is the condition of line 92. -/
def mineLoop (test : Nat → Bool) : Nat → Nat → Option Nat
  | 0, _ => none
  | n + 1, i => if test i then some i else mineLoop test n (i + 1)

/-- `application/miners/helper.go:100-112`: the loop over the additional base try; `n` iterations
are left. -/
def tryLoop (rec : Bytes → Outcome Bytes) (tries : Bytes) : Nat → Nat → Outcome Bytes
  | 0, _ => .err "the mining was impossible"
  | n + 1, i =>
    match rec (tries ++ natDec i) with
    | .err m => .err m
    | .crash c => .crash c
    | .ok r => if r ≠ [] then .ok r else tryLoop rec tries n (i + 1)

section
variable [Sha512]

/-- `application/miners/helper.go:76-92`: does number `i` after `tries` give the wanted prefix? -/
def mineTest (pre base tries : Bytes) (i : Nat) : Bool :=
  let rows := (if tries ≠ [] then [base, tries] else [base]) ++ [itoa i]
  hasPrefix (fromMultiBytes rows).bytes pre

/-- `application/miners/helper.go:70-113` (`mineRecursively`) with `stack` frames left. -/
def mineRec (pre base : Bytes) : Nat → Bytes → Outcome Bytes
  | 0, _ => .crash .stackOverflow
  | stack + 1, tries =>
    match mineLoop (mineTest pre base tries) (maxMiningValue + 1) 0 with
    | some i => .ok (tries ++ natDec i)
    | none => tryLoop (mineRec pre base stack) tries maxMiningTries 0

/-- `application/miners/helper.go:50-68` (`mine`). -/
def mine (stack : Nat) (difficulty : UInt64) (hsh : Hash) : Outcome Bytes :=
  mineRec (miningPrefix difficulty) hsh.bytes stack []

end

/-! ## Difficulty -/

/-- What the language leaves open: whether the compiler fuses the multiplication and the addition of
line 23 ("An implementation may combine multiple floating-point operations into a single fused
operation"), and the result of converting a float64 that is not in the range of `uint`. -/
structure Machine where
  fused : Bool
  big : Flt → UInt64

/-- `application/miners/helper.go:20-24`: the sum after `n` iterations. -/
def difficultySum (M : Machine) (incr : Flt) : Nat → Flt
  | 0 => .fin 0
  | n + 1 =>
    let index := Flt.ofRat ((n + 1 : Nat) : ℚ)
    if M.fused then Flt.fma index incr (difficultySum M incr n)
    else (difficultySum M incr n).add (index.mul incr)

/-- `uint(x)`: truncation. -/
def floatToUint (M : Machine) : Flt → UInt64
  | .fin x => if -1 < x ∧ x < 2 ^ 64 then UInt64.ofNat ⌊x⌋.toNat else M.big (.fin x)
  | x => M.big x

/-- `application/miners/helper.go:15-27` (`difficulty`); `n` is the number of transactions, a slice
length. -/
def blockDifficulty (M : Machine) (base : UInt64) (incr : Flt) (n : Nat) : UInt64 :=
  floatToUint M ((difficultySum M incr n).add (.ofRat base.toNat))

end Verif
