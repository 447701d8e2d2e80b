import Verif.Spec.Ring

/-!
# How a member of a ring makes a signature from numbers it draws

This is the scheme of Abe, Ohkubo and Suzuki with the drawn numbers as arguments.
-/

namespace Verif

section
variable [C : Curve]

/-- What a signer at position `i` of a ring with `n` keys draws: a number of its own, and one for every
other position. -/
abbrev Draws (n i : Nat) := C.F × ({j : Fin n // j.val ≠ i} → C.F)

/-- The signature that the owner of the private key `x`, at position `i`, makes of the numbers it drew:
the challenge after its own position is the hash of the message and the point of its number; from there
the challenges go around the ring over the other positions, whose numbers are as drawn; its own number
makes up for the challenge that arrives there. -/
def Signing (x : Scalar) (msg : Bytes) (ring : List C.Pt) (i : Nat) (d : Draws (C := C) ring.length i)
    (sig : RingSignature) : Prop :=
  ∃ E : Nat → Scalar, sig.ring = ring ∧ sig.s.length = ring.length ∧ sig.e = E 0 ∧
    E ((i + 1) % ring.length) =
      C.canon (C.hashF (msg ++ hexEncode (C.enc (C.mul (C.canon d.1) C.base)))) ∧
    (∀ j (hj : j < ring.length) (hne : j ≠ i),
      sig.s[j]? = some (C.canon (d.2 ⟨⟨j, hj⟩, hne⟩)) ∧
      E ((j + 1) % ring.length) = C.canon (C.hashF (msg ++ hexEncode (C.enc
        (C.add (C.mul (C.canon (d.2 ⟨⟨j, hj⟩, hne⟩)) C.base) (C.mul (E j) ring[j])))))) ∧
    sig.s[i]? = some (C.canon (d.1 - C.val (E i) * C.val x))

/-- A signature over a ring that verifies, with one reduced number per key. -/
structure Accepted (msg : Bytes) (ring : List C.Pt) (sig : RingSignature) : Prop where
  over : sig.ring = ring
  numbers : sig.s.length = ring.length
  reduced : ∀ s ∈ sig.s, s = C.canon (C.val s)
  verifies : sig.verify msg = .ok true

end

end Verif
