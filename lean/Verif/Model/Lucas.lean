import Verif.Model.ProbablyPrime

/-!
# Model of the Lucas test of `(*big.Int).ProbablyPrime`

`probablyPrimeLucas` and `Jacobi` of `math/big`, as of Go 1.13.
-/

namespace Verif

/-- The loop of `big.Jacobi`, with the given number of rounds left, for numbers that are not negative and an odd `b`. -/
def jacobiLoop : Nat → Nat → Nat → Int → Int
  | 0, _, _, _ => 0
  | f + 1, a, b, j =>
    if b = 1 then j
    else if a = 0 then 0
    else
      let a := a % b
      if a = 0 then 0
      else
        let (s, c) := splitTwos (Nat.size a) 0 a
        let j := if s % 2 = 1 ∧ (b % 8 = 3 ∨ b % 8 = 5) then -j else j
        let j := if b % 4 = 3 ∧ c % 4 = 3 then -j else j
        jacobiLoop f b c j

/-- `big.Jacobi`; `b` gets smaller in every round. -/
def goJacobi (a b : Nat) : Int := jacobiLoop b a b 1

/-- What the search for the parameter `p` ends with. -/
inductive LucasChoice where
  | found (p : Nat)
  | decided (prime : Bool)
  | panics

/-- The search for the parameter from `p` on, with the given number of values left up to 10000. -/
def lucasChoose (n : Nat) : Nat → Nat → LucasChoice
  | 0, _ => .panics
  | f + 1, p =>
    let j := goJacobi (p * p - 4) n
    if j = -1 then .found p
    else if j = 0 then .decided (n == p + 2)
    else if p = 40 ∧ Nat.sqrt n * Nat.sqrt n = n then .decided false
    else lucasChoose n f (p + 1)

/-- One step of the computation of `V(k)` and `V(k+1)`: the next bit of the index. -/
def lucasBit (n p : Nat) (v : Nat × Nat) (bit : Bool) : Nat × Nat :=
  if bit then ((v.1 * v.2 + n - p) % n, (v.2 * v.2 + (n - 2)) % n)
  else ((v.1 * v.1 + (n - 2)) % n, (v.1 * v.2 + n - p) % n)

/-- The loop over the bits of `s`, with the given number of bits left. -/
def lucasBits (n p s : Nat) : Nat → Nat × Nat → Nat × Nat
  | 0, v => v
  | i + 1, v => lucasBits n p s i (lucasBit n p v (s.testBit i))

/-- The last loop, with the given number of rounds left; the subtraction of 2 panics for 1. -/
def lucasTail (n : Nat) : Nat → Nat → Outcome Bool
  | 0, _ => .ok false
  | t + 1, v =>
    if v = 0 then .ok true
    else if v = 2 then .ok false
    else if v * v < 2 then .crash .invalidArgument
    else lucasTail n t ((v * v - 2) % n)

/-- `probablyPrimeLucas` after the parameter was found. -/
def lucasRun (n p : Nat) : Outcome Bool :=
  let (r, s) := splitTwos (Nat.size (n + 1)) 0 (n + 1)
  let v := lucasBits n p s (Nat.size s + 1) (2, p)
  if (v.1 = 2 ∨ v.1 = n - 2) ∧ ((v.1 * p - 2 * v.2) + (2 * v.2 - v.1 * p)) % n = 0 then .ok true
  else lucasTail n (r - 1) v.1

/-- `probablyPrimeLucas`. -/
def goLucas (n : Nat) : Outcome Bool :=
  if n = 0 ∨ n = 1 then .ok false
  else if n % 2 = 0 then .ok (n == 2)
  else
    match lucasChoose n 9998 3 with
    | .panics => .crash .invalidArgument
    | .decided b => .ok b
    | .found p => lucasRun n p

end Verif
