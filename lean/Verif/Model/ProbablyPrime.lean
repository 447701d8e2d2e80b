import Verif.Model.RandPrime

/-!
# Model of `(*big.Int).ProbablyPrime`

As of Go 1.13 on 64 bits, for numbers that are not negative. The pseudo-random bases of the Miller-Rabin test (between
2 and n - 2) and the result of the Lucas test are arguments.
-/

namespace Verif

/-- `primeBitMask`. -/
def primeBitMask : Nat :=
  2 ^ 2 + 2 ^ 3 + 2 ^ 5 + 2 ^ 7 + 2 ^ 11 + 2 ^ 13 + 2 ^ 17 + 2 ^ 19 + 2 ^ 23 + 2 ^ 29 + 2 ^ 31 + 2 ^ 37 + 2 ^ 41 +
    2 ^ 43 + 2 ^ 47 + 2 ^ 53 + 2 ^ 59 + 2 ^ 61

/-- `primesA`. -/
def primesA : Nat := 3 * 5 * 7 * 11 * 13 * 17 * 19 * 23 * 37

/-- `primesB`. -/
def primesB : Nat := 29 * 31 * 41 * 43 * 47 * 53

/-- `trailingZeroBits` and `shr`: how often 2 divides a number, and what is left. -/
def splitTwos : Nat → Nat → Nat → Nat × Nat
  | 0, k, q => (k, q)
  | fuel + 1, k, q => if q % 2 = 0 then splitTwos fuel (k + 1) (q / 2) else (k, q)

/-- The inner loop of `probablyPrimeMillerRabin`, with the given number of squarings left. -/
def mrLoop (n : Nat) : Nat → Nat → Bool
  | 0, _ => false
  | j + 1, y =>
    let y := y * y % n
    if y = n - 1 then true
    else if y = 1 then false
    else mrLoop n j y

/-- One round of `probablyPrimeMillerRabin`. -/
def mrRound (n x : Nat) : Bool :=
  let (k, q) := splitTwos (Nat.size (n - 1)) 0 (n - 1)
  let y := x ^ q % n
  if y = 1 ∨ y = n - 1 then true else mrLoop n (k - 1) y

/-- `ProbablyPrime`: small numbers by a table, even numbers, small factors, then Miller-Rabin with the bases and 2,
then Lucas. -/
def goProbablyPrime (bases : Nat → List Nat) (lucas : Nat → Bool) (n : Nat) : Bool :=
  if n = 0 then false
  else if n < 64 then primeBitMask.testBit n
  else if n % 2 = 0 then false
  else
    let r := n % (primesA * primesB)
    let rA := r % primesA
    let rB := r % primesB
    if [3, 5, 7, 11, 13, 17, 19, 23, 37].any (fun p => rA % p == 0) ||
        [29, 31, 41, 43, 47, 53].any (fun p => rB % p == 0) then false
    else (bases n ++ [2]).all (mrRound n) && lucas n

end Verif
