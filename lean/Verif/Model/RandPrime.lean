import Verif.Model.RsaCreate

/-!
# Model of `crypto/rand.Prime`

As of Go 1.13, where `rsa.GenerateKey`, called in `libs/cryptography/pk/encryption/factory.go:22`, takes its primes
from. The random source is a sequence of bytes that is read from a position on, and does not fail; the test
`(*big.Int).ProbablyPrime(20)` is an argument.
-/

namespace Verif

/-- `smallPrimes`. -/
def smallPrimes : List Nat := [3, 5, 7, 11, 13, 17, 19, 23, 29, 31, 37, 41, 43, 47, 53]

/-- `smallPrimesProduct`. -/
def smallPrimesProduct : Nat := 16294579238595022365

/-- `io.ReadFull` of `k` bytes. -/
def readBytes (src : Nat → UInt8) (pos k : Nat) : Bytes := (List.range k).map fun i => src (pos + i)

/-- The number of bits in the first byte. -/
def topBits (bits : Nat) : Nat := if bits % 8 = 0 then 8 else bits % 8

/-- The changes of the bytes before they are read as a number: unneeded bits cleared, the two highest bits set, the
lowest bit set. -/
def primeBytes (bits : Nat) (bytes : Bytes) : Bytes :=
  let b := topBits bits
  let bytes := bytes.modify 0 (· &&& UInt8.ofNat (2 ^ b - 1))
  let bytes :=
    if 2 ≤ b then bytes.modify 0 (· ||| UInt8.ofNat (3 * 2 ^ (b - 2)))
    else (bytes.modify 0 (· ||| 1)).modify 1 (· ||| 0x80)
  bytes.modify (bytes.length - 1) (· ||| 1)

/-- Whether the loop over the small primes goes on with the next delta. -/
def sievedOut (bits m : Nat) : Bool :=
  smallPrimes.any fun prime => m % prime == 0 && (decide (6 < bits) || m != prime)

/-- The loop over delta, with the given number of rounds left; zero if it comes to its end. -/
def nextDelta (bits mod : Nat) : Nat → Nat → Nat
  | 0, _ => 0
  | n + 1, delta => if sievedOut bits (mod + delta) then nextDelta bits mod n (delta + 2) else delta

/-- The number that one round of the loop of `Prime` tests. -/
def primeRound (bits : Nat) (bytes : Bytes) : Nat :=
  let p := beNat (primeBytes bits bytes)
  p + nextDelta bits (p % smallPrimesProduct) (2 ^ 19) 0

/-- `rand.Prime`: `none` if it still runs after the given rounds, otherwise its result and the position in the
source. -/
def randPrime (probablyPrime : Nat → Bool) (bits : Nat) (src : Nat → UInt8) :
    Nat → Nat → Option (Outcome Nat × Nat)
  | 0, _ => none
  | rounds + 1, pos =>
    if bits < 2 then some (.err "crypto/rand: prime size must be at least 2-bit", pos)
    else
      let k := (bits + 7) / 8
      let p := primeRound bits (readBytes src pos k)
      if probablyPrime p && Nat.size p == bits then some (.ok p, pos + k)
      else randPrime probablyPrime bits src rounds (pos + k)

/-- The loop of `GenerateMultiPrimeKey` that draws two primes: the second has the bits that are left. -/
def rsaDraw (probablyPrime : Nat → Bool) (bits : Nat) (src : Nat → UInt8) (rounds pos : Nat) :
    Option ((Nat × Nat) × Nat) :=
  match randPrime probablyPrime (bits / 2) src rounds pos with
  | some (.ok p, pos) =>
    match randPrime probablyPrime (bits - Nat.size p) src rounds pos with
    | some (.ok q, pos) => some ((p, q), pos)
    | _ => none
  | _ => none

/-- The pairs that the loop of `GenerateMultiPrimeKey` draws, at most the given number. -/
def rsaDraws (probablyPrime : Nat → Bool) (bits : Nat) (src : Nat → UInt8) (rounds : Nat) :
    Nat → Nat → List (Nat × Nat)
  | 0, _ => []
  | n + 1, pos =>
    match rsaDraw probablyPrime bits src rounds pos with
    | some (x, pos) => x :: rsaDraws probablyPrime bits src rounds n pos
    | none => []

end Verif
