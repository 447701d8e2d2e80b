import Verif.Model.Piastres.Lock

/-!
# What a ring signature is, independently of the code that checks it
-/

namespace Verif

section
variable [C : Curve]

/-- The scalars close a ring of challenges over the message: there is a challenge for every
position, starting and ending with the given one, and the challenge of the next position is the hash
of the message and the commitment `s*G + e*P` of the position. -/
def RingCloses (ring : List C.Pt) (s : List Scalar) (e : Scalar) (msg : Bytes) : Prop :=
  ring.length ≤ s.length ∧
  ∃ es : Nat → Scalar, es 0 = e ∧ es ring.length = e ∧
    ∀ i (hr : i < ring.length) (hs : i < s.length),
      es (i + 1) = C.canon (C.hashF (msg ++
        hexEncode (C.enc (C.add (C.mul s[i] C.base) (C.mul (es i) ring[i])))))

/-- The challenge of a position, which everybody can compute from a signature: the first one is part of
it, and the challenge of the next position is the hash of the message and the commitment `s*G + e*P`. -/
def challengeAt (msg : Bytes) (ring : List C.Pt) (s : List Scalar) (e : Scalar) : Nat → Scalar
  | 0 => e
  | i + 1 =>
    match ring[i]?, s[i]? with
    | some p, some t => C.canon (C.hashF (msg ++
        hexEncode (C.enc (C.add (C.mul t C.base) (C.mul (challengeAt msg ring s e i) p)))))
    | _, _ => e

/-- The commitment `s*G + e*P` of a position, with the challenge of this position. -/
def commitmentAt (msg : Bytes) (ring : List C.Pt) (s : List Scalar) (e : Scalar) (i : Nat) : Option C.Pt :=
  match ring[i]?, s[i]? with
  | some p, some t => some (C.add (C.mul t C.base) (C.mul (challengeAt msg ring s e i) p))
  | _, _ => none

/-- The signature opens the lock: it closes a ring over the text of the lock's hash, and the hashes
of the texts of the ring's keys are the lock's keys. -/
def Opens [Sha512] (l : Lock) (sig : RingSignature) : Prop :=
  RingCloses sig.ring sig.s sig.e l.hash.str ∧
  ∀ k, k ∈ l.pubKeys ↔ k ∈ sig.ring.map fun p => fromBytes (hexEncode (C.enc p))

end

end Verif
