import Verif.Spec.Json
import Verif.Spec.Ring

/-!
# What everybody can do to a ring signature, without any key
-/

namespace Verif

section
variable [C : Curve]

/-- The signature with more scalars behind those it has. -/
def RingSignature.padded (sig : RingSignature) (extra : List Scalar) : RingSignature :=
  { sig with s := sig.s ++ extra }

/-- The signature that begins with the challenge of position `k`, and with the ring and the scalars turned
by `k` positions. Everybody who has the signature can compute it. -/
def RingSignature.turned (sig : RingSignature) (msg : Bytes) (k : Nat) : RingSignature :=
  ⟨sig.ring.rotate k, (sig.s.take sig.ring.length).rotate k, challengeAt msg sig.ring sig.s sig.e k⟩

/-- The expense pays the same: it is made of the same content, at the same time. -/
def Expense.SamePayment (e f : Expense) : Prop := f.content = e.content ∧ f.createdOn = e.createdOn

end

end Verif
