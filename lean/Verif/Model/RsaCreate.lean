import Verif.Model.Rsa

/-!
# Model of `libs/cryptography/pk/encryption/factory.go`

`rsa.GenerateKey` is `GenerateMultiPrimeKey` with two primes, written out here as of Go 1.13. The primes that
`rand.Prime` returns are arguments, one pair for each round of the loop; the random source does not fail.
-/

namespace Verif

/-- One round of the loop of `GenerateMultiPrimeKey`, after two primes were drawn: `none` is `continue`. -/
def rsaAttempt (bits p q : Nat) : Option RsaKey :=
  if q = p then none
  else
    let n := p * q
    let totient := (p - 1) * (q - 1)
    if Nat.size n ≠ bits then none
    else
      match modInverse 65537 totient with
      | none => none
      | some d => some ⟨⟨n, 65537⟩, d, p, q, true⟩

/-- The loop of `GenerateMultiPrimeKey`: `none` if it still runs after the given rounds. -/
def rsaPrimes (bits : Nat) : List (Nat × Nat) → Option RsaKey
  | [] => none
  | (p, q) :: rest =>
    match rsaAttempt bits p q with
    | some k => some k
    | none => rsaPrimes bits rest

/-- `factory.go:21-28` (`Create`). For fewer than 64 bits `GenerateMultiPrimeKey` estimates the number of primes
of half the length with floats, and refuses if a quarter of a half of it is at most two; the estimate is below 1.7
for primes of at most 5 bits, and above 2.5 for primes of 6 and more bits. -/
def rsaCreate (bitRate : Int) (draws : List (Nat × Nat)) : Option (Outcome (RsaKey × RsaPub)) :=
  if bitRate < 12 then
    some (.err "crypto/rsa: too few primes of given length to generate an RSA key")
  else
    match rsaPrimes bitRate.toNat draws with
    | none => none
    | some k => some (rsaKeyNow (some k))

end Verif
