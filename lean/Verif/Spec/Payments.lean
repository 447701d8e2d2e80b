import Verif.Spec.Piastres
import Verif.Spec.Json

/-!
# Payments
-/

namespace Verif

section
variable [Sha512] [C : Curve]

/-- Somebody with a private key, and a bill whose lock is made of the public keys of a ring. -/
structure Holding where
  key : Scalar
  ring : List C.Pt
  bill : Bill

/-- They can open the bill: the lock is made of the texts of the ring, and their key is in the ring
(and at most `largestFactor`, as every key that is created). -/
def Holding.Held (h : Holding) : Prop :=
  h.key.Fits ∧ h.ring.Nodup ∧ publicKey h.key ∈ h.ring ∧ h.bill.Built ∧
    ∃ t, lockNow (some (h.ring.map fun p => fromBytes (ptStr p))) t = .ok h.bill.lock

/-- The bill is handed on as a whole by expenses that are accepted one after the other, each spending
the bill that the one before made. -/
inductive Passes : Holding → List Expense → Holding → Prop
  | here (h : Holding) : Passes h [] h
  | next {h h' h'' : Holding} {x : Expense} {xs : List Expense} (hx : x.Built)
      (hs : x.content.source = [h.bill]) (hr : x.content.remaining = none)
      (hd : x.content.dest = h'.bill) (ha : h'.bill.amount = h.bill.amount)
      (hp : Passes h' xs h'') : Passes h (x :: xs) h''

end

end Verif
